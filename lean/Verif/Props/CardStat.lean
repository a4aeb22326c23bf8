import Verif.Props.CardAsimov
import Verif.Props.StatAsimov

/-!
C104 and C109 for converted datacards: the likelihood of a card with the statistical uncertainty of its histograms, and its Asimov fit.
-/

namespace Verif.CardFile

open Verif.Writer Verif.Datacard FileFit.Spec

noncomputable section

/-! ### specification -/

namespace Spec

/-- the variances of the histograms of a card -/
structure Variances (roots : String → Dict String (Node (Hist ℝ))) (mass : String) (c : Card ℝ) (V : String → String → Nat → ℝ) : Prop where
  given : ∀ b ∈ c.bins, ∀ p, Column c b p → ∀ h, Datacard.Spec.Given roots mass c p b none h →
    ∀ (i : Nat) x, (h.vars false)[i]? = some x → x = .fin (V b p i)
  absent : ∀ b ∈ c.bins, ∀ p, ¬ Column c b p → ∀ i, V b p i = 0

end Spec

section
variable {roots : String → Dict String (Node (Hist ℝ))} {mass : String} {flt : String → Res ℝ} {symm : Symm} {c : Card ℝ} {A : Analysis}
  (D : Spec.Describes roots mass flt symm c A) {calls : List (Call ℝ (Hist ℝ))} {ops : List (Op ℝ)}
  (hconv : convert (fileEnv roots mass c counting flt 0 1.01) c = .ok calls) (hops : callOps symm calls = .ok ops)
include D hconv hops

/-- the calls give the variances of the card -/
theorem variances {V : String → String → Nat → ℝ} (hV : Spec.Variances roots mass c V) : FileFit.Spec.Variances A V ops where
  given := by
    intro b _ h p s v hm i x hx
    obtain ⟨y, _, hy, ho⟩ := origin D hconv hops _ hm
    cases hy <;> cases ho
    exact hV.given b ‹_› p ‹_› _ ‹_› _ x hx
  absent := by
    intro b hb p hno i
    obtain ⟨⟨b', n⟩, hbn, rfl⟩ := List.mem_map.1 hb
    refine hV.absent b' (column_bin D hbn) p (fun hcol => ?_) i
    obtain ⟨_, _, i, hi⟩ := D.columns b' (column_bin D hbn) p hcol
    obtain ⟨h, hm⟩ := column_op D hconv hops (column_bin D hbn) hcol hi
    exact hno h _ _ hm

end

/-! ### theorems -/

/-- C104 for a converted card: the loss built from its file with bin-by-bin parameters is the likelihood of the card with the statistical
uncertainty of its histograms, at its minimum over the parameters of the bins. -/
theorem c104_card (close : Axis → Axis → Bool) (symm : Symm) (iter : List String → List String) (hit : ∀ l, (iter l).Perm l)
    (roots : String → Dict String (Node (Hist ℝ))) (mass : String) (flt : String → Res ℝ) (c : Card ℝ) (A : Analysis)
    (D : Spec.Describes roots mass flt symm c A) (V : String → String → Nat → ℝ) (hV : Spec.Variances roots mass c V)
    (hvar : ∀ c p i, 0 ≤ V c p i) (hobs : ∀ c n, (c, n) ∈ A.chans → ∀ i < n, 0 ≤ A.obs c i) (t : Tensor ℝ)
    (hw : cardFile (writerCfg Yields.num close false) symm iter roots mass flt 0 1.01 c = .ok t) (kind : BBB.Kind) (xdef : List ℝ) (neg : Bool) :
    ∃ C, ∀ x, A.present V kind (strength t neg (List.ofFn x)) (nuisance t (List.ofFn x)) →
      ∃ v, (FileFit.ofFileStat t .logNormal xdef neg kind).loss x = .ok (some v) ∧
        (∃ β : String → Nat → ℝ, (∀ c n, (c, n) ∈ A.chans → ∀ i < n,
            A.possible V kind (strength t neg (List.ofFn x)) (nuisance t (List.ofFn x)) (β c i) c i) ∧
          v = A.nllStat V kind (strength t neg (List.ofFn x)) (nuisance t (List.ofFn x)) β + C) ∧
        ∀ β : String → Nat → ℝ, (∀ c n, (c, n) ∈ A.chans → ∀ i < n,
            A.possible V kind (strength t neg (List.ofFn x)) (nuisance t (List.ofFn x)) (β c i) c i) →
          v ≤ A.nllStat V kind (strength t neg (List.ofFn x)) (nuisance t (List.ofFn x)) β + C := by
  obtain ⟨calls, hconv, hw⟩ := Datacard.bind_ok hw
  obtain ⟨ops, hops, hw⟩ := Datacard.bind_ok hw
  obtain ⟨s, hrun, hw⟩ := Datacard.bind_ok hw
  obtain ⟨F, hok⟩ := written D hconv hops hrun hw
  have hD := described D hconv hops
  refine FileFit.c104_profiled _ ops iter t A F hok rfl hit (fun b b' h h' he h1 h2 => ?_) hD V (variances D hconv hops hV) hvar hobs kind xdef neg
  rw [← hD.constrained b h h1, ← hD.constrained b' h' h2, he]

/-- C109 for a converted card: the Asimov fit with bin-by-bin parameters closes. -/
theorem c109_card (close : Axis → Axis → Bool) (symm : Symm) (iter : List String → List String) (hit : ∀ l, (iter l).Perm l)
    (roots : String → Dict String (Node (Hist ℝ))) (mass : String) (flt : String → Res ℝ) (c : Card ℝ) (A : Analysis)
    (D : Spec.Describes roots mass flt symm c A) (V : String → String → Nat → ℝ) (hV : Spec.Variances roots mass c V)
    (hvar : ∀ c p i, 0 ≤ V c p i) (t : Tensor ℝ)
    (hw : cardFile (writerCfg Yields.num close false) symm iter roots mass flt 0 1.01 c = .ok t) (kind : BBB.Kind) (neg : Bool) (xdef : List ℝ)
    (expect : List (String × ℝ)) (hexp : ParamModels.setParamDefault Real.sqrt t.signals t.signals.length neg expect = .ok xdef)
    (hneg : neg = true ∨ ∀ p ∈ A.signals, 0 ≤ SatTest.Spec.requested expect p)
    (hpos : ∀ c n, (c, n) ∈ A.chans → ∀ i < n, 0 ≤ A.expected (SatTest.Spec.requested expect) (fun _ => 0) c i)
    (hpres : A.present V kind (SatTest.Spec.requested expect) fun _ => 0) :
    ∃ d v₀, (FileFit.ofFileStat t .logNormal xdef neg kind).asimov (FileFit.ofFile t .logNormal xdef neg).x0 = .ok d ∧
      ((FileFit.ofFileStat t .logNormal xdef neg kind).prepared (FileFit.ofFile t .logNormal xdef neg).x0 d).loss (FileFit.ofFile t .logNormal xdef neg).x0 =
        .ok (some v₀) ∧
      ∀ x : Fin (FileFit.ofFile t .logNormal xdef neg).n → ℝ, A.present V kind (strength t neg (List.ofFn x)) (nuisance t (List.ofFn x)) →
        A.soundRest V kind (SatTest.Spec.requested expect) (strength t neg (List.ofFn x)) (nuisance t (List.ofFn x)) →
        ∃ v, ((FileFit.ofFileStat t .logNormal xdef neg kind).prepared (FileFit.ofFile t .logNormal xdef neg).x0 d).loss x = .ok (some v) ∧ v₀ ≤ v ∧
          (v = v₀ ↔ (∀ m ∈ A.nuisances, A.constrained m = true → nuisance t (List.ofFn x) m = 0) ∧
            ∀ c n, (c, n) ∈ A.chans → ∀ i < n, A.expected (strength t neg (List.ofFn x)) (nuisance t (List.ofFn x)) c i =
              A.expected (SatTest.Spec.requested expect) (fun _ => 0) c i) := by
  obtain ⟨calls, hconv, hw⟩ := Datacard.bind_ok hw
  obtain ⟨ops, hops, hw⟩ := Datacard.bind_ok hw
  obtain ⟨s, hrun, hw⟩ := Datacard.bind_ok hw
  obtain ⟨F, hok⟩ := written D hconv hops hrun hw
  have hD := described D hconv hops
  refine FileFit.c109_closure _ ops iter t A F hok rfl hit (fun b b' h h' he h1 h2 => ?_) hD V (variances D hconv hops hV) hvar kind neg xdef expect
    hexp hneg hpos hpres
  rw [← hD.constrained b h h1, ← hD.constrained b' h' h2, he]

/-- C109 for a converted card without rate parameters and `shapeU` rows: the fit gives the requested strengths back. -/
theorem c109_card_unique (close : Axis → Axis → Bool) (symm : Symm) (iter : List String → List String) (hit : ∀ l, (iter l).Perm l)
    (roots : String → Dict String (Node (Hist ℝ))) (mass : String) (flt : String → Res ℝ) (c : Card ℝ) (A : Analysis)
    (D : Spec.Describes roots mass flt symm c A) (V : String → String → Nat → ℝ) (hV : Spec.Variances roots mass c V)
    (hvar : ∀ c p i, 0 ≤ V c p i) (t : Tensor ℝ)
    (hw : cardFile (writerCfg Yields.num close false) symm iter roots mass flt 0 1.01 c = .ok t) (kind : BBB.Kind) (neg : Bool) (xdef : List ℝ)
    (expect : List (String × ℝ)) (hexp : ParamModels.setParamDefault Real.sqrt t.signals t.signals.length neg expect = .ok xdef)
    (hneg : neg = true ∨ ∀ p ∈ A.signals, 0 ≤ SatTest.Spec.requested expect p)
    (hpos : ∀ c n, (c, n) ∈ A.chans → ∀ i < n, 0 ≤ A.expected (SatTest.Spec.requested expect) (fun _ => 0) c i)
    (hpres : A.present V kind (SatTest.Spec.requested expect) fun _ => 0)
    (hrate : c.rateParams = []) (hshape : ∀ s ∈ c.systematics, s.type ≠ "shapeU") (hind : A.independent) :
    ∃ d v₀, (FileFit.ofFileStat t .logNormal xdef neg kind).asimov (FileFit.ofFile t .logNormal xdef neg).x0 = .ok d ∧
      ((FileFit.ofFileStat t .logNormal xdef neg kind).prepared (FileFit.ofFile t .logNormal xdef neg).x0 d).loss (FileFit.ofFile t .logNormal xdef neg).x0 =
        .ok (some v₀) ∧
      ∀ x : Fin (FileFit.ofFile t .logNormal xdef neg).n → ℝ, A.present V kind (strength t neg (List.ofFn x)) (nuisance t (List.ofFn x)) →
        A.soundRest V kind (SatTest.Spec.requested expect) (strength t neg (List.ofFn x)) (nuisance t (List.ofFn x)) →
        ∃ v, ((FileFit.ofFileStat t .logNormal xdef neg kind).prepared (FileFit.ofFile t .logNormal xdef neg).x0 d).loss x = .ok (some v) ∧ v₀ ≤ v ∧
          (v = v₀ ↔ (∀ p ∈ A.signals, strength t neg (List.ofFn x) p = SatTest.Spec.requested expect p) ∧
            ∀ m ∈ A.nuisances, nuisance t (List.ofFn x) m = 0) := by
  obtain ⟨calls, hconv, hw⟩ := Datacard.bind_ok hw
  obtain ⟨ops, hops, hw⟩ := Datacard.bind_ok hw
  obtain ⟨s, hrun, hw⟩ := Datacard.bind_ok hw
  obtain ⟨F, hok⟩ := written D hconv hops hrun hw
  have hD := described D hconv hops
  refine FileFit.c109_unique _ ops iter t A F hok rfl hit (fun b b' h h' he h1 h2 => ?_) hD V (variances D hconv hops hV) hvar kind neg xdef expect
    hexp hneg hpos hpres (fun m hm => ?_) hind
  · rw [← hD.constrained b h h1, ← hD.constrained b' h' h2, he]
  · rcases (D.nuisances m).1 hm with ⟨b, p, row, hr, _⟩ | ⟨s, hs, hn, b, p, e, he⟩
    · rw [hrate] at hr; cases hr
    · rw [D.constrained s hs b p e he m hn, decide_eq_false (hshape s hs)]; rfl

/-! ### cases -/

namespace ExU

/-- the variances of the histograms are their contents -/
def var (_ p : String) (i : Nat) : ℝ := if p = "s" ∨ p = "q" then [1, 2].getD i 0 else 0

theorem variances : Spec.Variances Ex.roots "125" card var where
  given := by
    intro b hb p hcol h hg i x hx
    obtain ⟨rfl, hp⟩ := (column_iff b p).1 hcol
    have e : h = Ex.hh [1, 2] := by
      rcases hp with rfl | rfl
      · exact given_unique describes.named (.inr (by simp [card])) hb hg given_s
      · exact given_unique describes.named (.inr (by simp [card])) hb hg given_q
    subst e
    rw [Ex.vals_hh (show ((Ex.hh [1, 2]).vals false)[i]? = some x from hx), var, if_pos hp]
  absent := by
    intro b hb p hcol i
    obtain rfl : b = "b" := by simpa [card] using hb
    exact if_neg fun h => hcol ((column_iff _ p).2 ⟨rfl, h⟩)

theorem var_nonneg (c p : String) (i : Nat) : 0 ≤ var c p i := by
  unfold var
  split_ifs
  · match i with
    | 0 => norm_num
    | 1 => norm_num
    | i + 2 => simp
  · exact le_rfl

theorem present (kind : BBB.Kind) (μ θ : String → ℝ) (hμ : 0 ≤ μ "s") : paper.present var kind μ θ := by
  intro c n hc i hi _
  simp only [paper, List.mem_singleton, Prod.mk.injEq] at hc
  obtain ⟨rfl, rfl⟩ := hc
  have hpos : (0 : ℝ) < [1, 2].getD i 0 := by
    match i, hi with
    | 0, _ => norm_num
    | 1, _ => norm_num
  have hv : ∀ p, p = "s" ∨ p = "q" → var "b" p i ≠ 0 ∧ 0 < paper.varied θ "b" p i := by
    intro p hp
    refine ⟨by rw [var, if_pos hp]; exact hpos.ne', mul_pos ?_ (Real.exp_pos _)⟩
    show 0 < if p = "s" ∨ p = "q" then [1, 2].getD i 0 else 0
    rw [if_pos hp]
    exact hpos
  obtain ⟨p1, p2⟩ := hv "s" (.inl rfl)
  obtain ⟨q1, q2⟩ := hv "q" (.inr rfl)
  have e : paper.procs = ["s", "q"] := rfl
  have s1 : "s" ∈ paper.signals := List.mem_singleton.2 rfl
  have s2 : "q" ∉ paper.signals := by simp [paper]
  rw [e]
  simp only [List.map_cons, List.map_nil, List.sum_cons, List.sum_nil, if_neg p1, if_neg q1, Analysis.yieldOf, if_pos s1, if_neg s2]
  exact ⟨by positivity, fun _ => by simp⟩

theorem uncertain (kind : BBB.Kind) (i : Nat) (hi : i < 2) : paper.uncertain var kind "b" i := by
  match i, hi with
  | 0, _ => constructor <;> simp [Analysis.variance, Analysis.simulated, Analysis.procs, paper, var]
  | 1, _ => constructor <;> simp [Analysis.variance, Analysis.simulated, Analysis.procs, paper, var]

end ExU

/-- The hypotheses of `c104_card`, `c109_card` and `c109_card_unique` are met by the card of C105 without its rate parameter, for every kind of
template statistics and at all points with squared parameters: every bin has a parameter, and the fit gives the strength 3 back. -/
example (kind : BBB.Kind) : ∃ t d v₀ C, cardFile (writerCfg Yields.num Ex.close false) .none id Ex.roots "125" Ex.flt 0 1.01 ExU.card = .ok t ∧
    (FileFit.ofFileStat t .logNormal [Real.sqrt 3] false kind).asimov (FileFit.ofFile t .logNormal [Real.sqrt 3] false).x0 = .ok d ∧
    ExU.paper.uncertain ExU.var kind "b" 1 ∧
    ∀ x : Fin (FileFit.ofFile t .logNormal [Real.sqrt 3] false).n → ℝ,
      (∃ v β, (FileFit.ofFileStat t .logNormal [Real.sqrt 3] false kind).loss x = .ok (some v) ∧
        v = ExU.paper.nllStat ExU.var kind (strength t false (List.ofFn x)) (nuisance t (List.ofFn x)) β + C) ∧
      ∃ v, ((FileFit.ofFileStat t .logNormal [Real.sqrt 3] false kind).prepared (FileFit.ofFile t .logNormal [Real.sqrt 3] false).x0 d).loss x = .ok (some v) ∧
        v₀ ≤ v ∧ (v = v₀ → strength t false (List.ofFn x) "s" = 3) := by
  obtain ⟨h1, h2⟩ := ExU.good
  obtain ⟨t, ht, hv⟩ := Writer.Ex.okB_iff h1
  have hw : cardFile (writerCfg Yields.num Ex.close false) .none id Ex.roots "125" Ex.flt 0 1.01 ExU.card = .ok t := by
    have hc := ExU.converted
    obtain ⟨calls, hconv, hops⟩ := Datacard.bind_ok hc
    rw [cardFile, hconv, ok_bind, hops, ok_bind, Ex.run_ok h2, ok_bind]
    exact ht
  have hsig : t.signals = ["s"] := by
    obtain ⟨calls, hconv, hw⟩ := Datacard.bind_ok hw
    obtain ⟨ops, hops, hw⟩ := Datacard.bind_ok hw
    obtain ⟨s, hrun, hw⟩ := Datacard.bind_ok hw
    obtain ⟨F, hok⟩ := written ExU.describes hconv hops hrun hw
    obtain ⟨_, _, _, hp, _⟩ := FileFit.procs_split F hok (described ExU.describes hconv hops)
    exact List.perm_singleton.1 hp
  have hreq : SatTest.Spec.requested [("s", (3 : ℝ))] "s" = 3 := rfl
  obtain ⟨C, hC⟩ := c104_card Ex.close .none id (fun l => .refl l) Ex.roots "125" Ex.flt ExU.card ExU.paper ExU.describes ExU.var ExU.variances
    ExU.var_nonneg (fun c n hc i hi => by
      obtain ⟨rfl, rfl⟩ := Prod.mk.inj (List.mem_singleton.1 (show (c, n) ∈ [("b", 2)] from hc))
      match i, hi with
      | 0, _ => norm_num [ExU.paper]
      | 1, _ => norm_num [ExU.paper]) t hw kind [Real.sqrt 3] false
  obtain ⟨d, v₀, c1, -, c3⟩ := c109_card_unique Ex.close .none id (fun l => .refl l) Ex.roots "125" Ex.flt ExU.card ExU.paper ExU.describes
    ExU.var ExU.variances ExU.var_nonneg t hw kind false [Real.sqrt 3]
    [("s", 3)] (by rw [hsig]; rfl) (.inr fun p hp => by
      rcases List.mem_singleton.1 (show p ∈ ["s"] from hp) with rfl
      rw [hreq]; norm_num) (fun c n hc i hi => by
      obtain ⟨rfl, rfl⟩ := Prod.mk.inj (List.mem_singleton.1 (show (c, n) ∈ [("b", 2)] from hc))
      have : ExU.paper.expected (SatTest.Spec.requested [("s", 3)]) (fun _ => 0) "b" i = (3 + 1) * [1, 2].getD i 0 := by
        simp [Analysis.expected, Analysis.varied, ExU.paper, paired, hreq]
        ring
      rw [this]
      match i, hi with
      | 0, _ => norm_num
      | 1, _ => norm_num) (ExU.present kind _ _ (by rw [hreq]; norm_num)) rfl (by simp [ExU.card]) (fun a ha p hp => by
      rcases List.mem_singleton.1 (show p ∈ ["s"] from hp) with rfl
      have := ha "b" 2 (List.mem_singleton.2 rfl) 0 (by norm_num)
      simpa [ExU.paper] using this)
  refine ⟨t, d, v₀, C, hw, c1, ExU.uncertain kind 1 (by norm_num), fun x => ⟨?_, ?_⟩⟩
  · obtain ⟨v, e1, ⟨β, -, e2⟩, -⟩ := hC x (ExU.present kind _ _ (sq_nonneg _))
    exact ⟨v, β, e1, e2⟩
  · obtain ⟨v, e1, e2, e3⟩ := c3 x (ExU.present kind _ _ (sq_nonneg _)) (by
      intro c n hc i hi hu
      obtain ⟨rfl, rfl⟩ := Prod.mk.inj (List.mem_singleton.1 (show (c, n) ∈ [("b", 2)] from hc))
      exact absurd (ExU.uncertain kind i hi) hu)
    exact ⟨v, e1, e2, fun h => (e3.1 h).1 "s" (List.mem_singleton.2 rfl)⟩

end

end Verif.CardFile
