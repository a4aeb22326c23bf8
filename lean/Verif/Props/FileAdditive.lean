import Verif.Lemmas.NormAdditive
import Verif.Props.CovProfile

/-!
C113 With additive variations the likelihood that is minimised is the one the calls on the writer describe.
-/

namespace Verif.FileFit

open Verif.Writer Verif.LinearFit Verif.FitParams Finset

noncomputable section

/-! ### specification: an analysis with additive variations on paper -/

namespace Spec

/-- An analysis with additive variations as it is written on paper; everything is addressed by names. -/
structure Additive where
  /-- fitted channels with their numbers of bins -/
  chans : List (String × Nat)
  signals : List String
  backgrounds : List String
  nuisances : List String
  constrained : String → Bool
  /-- observed events per channel and bin -/
  obs : String → Nat → ℝ
  /-- nominal template per channel, process and bin -/
  nominal : String → String → Nat → ℝ
  /-- varied minus nominal content, per channel, process, nuisance and bin, as a function of the nuisance -/
  shift : String → String → String → Nat → ℝ → ℝ

/-- expected events of a bin: signal strengths `μ` scale the nominal templates, the variations are added -/
def Additive.expected (A : Additive) (μ θ : String → ℝ) (c : String) (i : Nat) : ℝ :=
  (A.signals.map fun p => μ p * A.nominal c p i).sum + (A.backgrounds.map fun p => A.nominal c p i).sum +
    ((A.signals ++ A.backgrounds).map fun p => (A.nuisances.map fun m => A.shift c p m i (θ m)).sum).sum

/-- negative logarithm of the likelihood up to a constant: Poisson counts and unit Gaussian constraints -/
def Additive.nll (A : Additive) (μ θ : String → ℝ) : ℝ :=
  (A.chans.map fun c => ∑ i ∈ range c.2, (A.expected μ θ c.1 i - A.obs c.1 i * Real.log (A.expected μ θ c.1 i))).sum +
    (A.nuisances.map fun m => if A.constrained m then θ m ^ 2 / 2 else 0).sum

/-- the shift `f` of process `p` by nuisance `m` that a call describes, for nominal content `x` of bin `i` -/
def Shifts (p m : String) (i : Nat) (x : ℝ) (f : ℝ → ℝ) : Op ℝ → Prop
  | .syst (.single h) _ _ _ k _ _ toCov diff _ => toCov = false ∧ ∃ u, Writer.Spec.varied h false diff i x u ∧
      ∀ θ, f θ = k * (u - x) * θ
  | .syst (.pair h h') name _ _ k _ symm toCov diff _ => toCov = false ∧ ∃ u d, Writer.Spec.varied h false diff i x u ∧
      Writer.Spec.varied h' false diff i x d ∧ ∀ θ, f θ = paired symm (m == name ++ "SymDiff") (k * (u - x)) (k * (d - x)) θ
  | .normSyst _ procs _ unc toCov symm _ => toCov = false ∧
      ((procs.Nodup ∧ ∃ us : List ℝ, unc = us.map .num ∧ procs.length = us.length ∧ (∀ u ∈ us, 0 < u) ∧
        ∃ u, (p, u) ∈ procs.zip us ∧ ∀ θ, f θ = (u - 1) * x * θ) ∨
      ∃ u d : ℝ, procs = [p] ∧ unc = [.list [u, d]] ∧ 0 < u ∧ 0 < d ∧ (symm = .average ∨ symm = .conservative) ∧
        ∀ θ, f θ = paired symm false ((u - 1) * x) ((d - 1) * x) θ)
  | _ => False

/-- What a history of calls describes.  Each nuisance is given at most once per channel and process. -/
structure Sums (allowNeg : Bool) (ops : List (Op ℝ)) (A : Additive) : Prop where
  named : ∀ axes mk fl, Op.channel axes none mk fl ∉ ops
  canonical : ∀ h p c s v, Op.process h p c s v ∈ ops → ∀ flow, ((h.flatCsr flow).2.map (·.1)).Nodup
  chansOnce : (A.chans.map Prod.fst).Nodup
  chans : ∀ c n, (c, n) ∈ A.chans ↔ ∃ axes fl, Op.channel axes (some c) false fl ∈ ops ∧ n = (axes.map Axis.size).prod
  signalsOnce : A.signals.Nodup
  signals : ∀ p, p ∈ A.signals ↔ ∃ h c v, Op.process h p c true v ∈ ops
  backgroundsOnce : A.backgrounds.Nodup
  backgrounds : ∀ p, p ∈ A.backgrounds ↔ ∃ h c v, Op.process h p c false v ∈ ops
  nuisancesOnce : A.nuisances.Nodup
  nuisances : ∀ m, m ∈ A.nuisances ↔ ∃ b, Writer.Spec.asked ops b ∧ b.name = m ∧ b.toCov = false
  constrained : ∀ b, Writer.Spec.asked ops b → b.toCov = false → A.constrained b.name = b.o.constrained
  obs : ∀ h c v, Op.data h c v ∈ ops → ∀ (i : Nat) x, (h.flatVals false)[i]? = some x → x = .fin (A.obs c i)
  nominal : ∀ c ∈ A.chans.map Prod.fst, ∀ h p s v, Op.process h p c s v ∈ ops → ∀ (i : Nat) x, (h.flatVals false)[i]? = some x →
    Writer.Spec.storedAs allowNeg x (A.nominal c p i)
  absent : ∀ c ∈ A.chans.map Prod.fst, ∀ p, (∀ h s v, Op.process h p c s v ∉ ops) → ∀ i, A.nominal c p i = 0
  once : ∀ c p m l op r, ops = l ++ op :: r → Writer.Spec.touches c p m op → ∀ o ∈ r, ¬ Writer.Spec.touches c p m o
  silent : ∀ c ∈ A.chans.map Prod.fst, ∀ p m, (∀ op ∈ ops, ¬ Writer.Spec.touches c p m op) → ∀ i θ, A.shift c p m i θ = 0
  shifts : ∀ c n, (c, n) ∈ A.chans → ∀ p, ∀ m ∈ A.nuisances, ∀ op ∈ ops, Writer.Spec.touches c p m op → ∀ i < n,
    Shifts p m i (A.nominal c p i) (A.shift c p m i) op

/-- the same analysis with variations scaled by a factor per process -/
def Additive.scaled (A : Additive) (δ : String → ℝ) : Additive :=
  { A with shift := fun c p m i θ => δ p * A.shift c p m i θ }

/-- the same analysis with variations scaled by a factor per process, and without variations of bins that have no nominal content -/
def Additive.stored (A : Additive) (δ : String → ℝ) : Additive :=
  { A with shift := fun c p m i θ => if A.nominal c p i = 0 then 0 else δ p * A.shift c p m i θ }

/-- default strength of a process: `xdef` lists those of the signals -/
def default (t : Tensor ℝ) (xdef : List ℝ) (p : String) : ℝ := if p ∈ t.signals then xdef.getD (t.signals.idxOf p) 1 else 1

/-- variations act only where there is nominal content -/
def filled (ops : List (Op ℝ)) (A : Additive) : Prop :=
  ∀ c n, (c, n) ∈ A.chans → ∀ p, ∀ m ∈ A.nuisances, (∃ op ∈ ops, Writer.Spec.touches c p m op) → ∀ i < n, A.nominal c p i ≠ 0

end Spec

/-! ### the same calls read as multiplicative variations -/

open Classical in
/-- the analysis with the same channels, processes and nuisances -/
def Spec.Additive.base (A : Spec.Additive) (ops : List (Op ℝ)) : Spec.Analysis where
  chans := A.chans
  signals := A.signals
  backgrounds := A.backgrounds
  nuisances := A.nuisances
  constrained := A.constrained
  obs := A.obs
  nominal := A.nominal
  response := fun c p m i θ => if h : ∃ f, ∃ op ∈ ops, Writer.Spec.touches c p m op ∧ Spec.Responds p m i (A.nominal c p i) f op then Classical.choose h θ else 0

theorem touches_unique {ops : List (Op ℝ)} {c p m : String}
    (h : ∀ l op r, ops = l ++ op :: r → Writer.Spec.touches c p m op → ∀ o ∈ r, ¬ Writer.Spec.touches c p m o) {op op' : Op ℝ} (h1 : op ∈ ops) (h2 : op' ∈ ops)
    (h3 : Writer.Spec.touches c p m op) (h4 : Writer.Spec.touches c p m op') : op = op' := by
  obtain ⟨l, r, rfl⟩ := List.append_of_mem h1
  rcases List.mem_append.1 h2 with h5 | h5
  · obtain ⟨l1, l2, rfl⟩ := List.append_of_mem h5
    exact absurd h3 (h l1 op' (l2 ++ op :: r) (by simp) h4 op (by simp))
  · rcases List.mem_cons.1 h5 with h6 | h6
    · exact h6.symm
    · exact absurd h4 (h l op r rfl h3 op' h6)

theorem base_describes {b : Bool} {ops : List (Op ℝ)} {A : Spec.Additive} (E : Spec.Sums b ops A) : Spec.Describes b ops (A.base ops) where
  named := E.named
  canonical := E.canonical
  chansOnce := E.chansOnce
  chans := E.chans
  signalsOnce := E.signalsOnce
  signals := E.signals
  backgroundsOnce := E.backgroundsOnce
  backgrounds := E.backgrounds
  nuisancesOnce := E.nuisancesOnce
  nuisances := E.nuisances
  constrained := E.constrained
  obs := E.obs
  nominal := E.nominal
  absent := E.absent
  once := E.once
  silent := by
    intro c _ p m hno i θ
    refine dif_neg ?_
    rintro ⟨f, op, h1, h2, _⟩
    exact hno op h1 h2
  responds := by
    intro c n hc p m hm op ho hto i hi hx
    have hex : ∃ f, ∃ op ∈ ops, Writer.Spec.touches c p m op ∧ Spec.Responds p m i (A.nominal c p i) f op := by
      have hs := E.shifts c n hc p m hm op ho hto i hi
      cases op with
      | channel | data | dataCov | pseudo | process | write => exact hs.elim
      | syst x name p' c' k mirror symm toCov diff o =>
        cases x with
        | single h =>
          obtain ⟨h1, u, h2, _⟩ := hs
          exact ⟨_, _, ho, hto, h1, u, h2, fun _ => rfl⟩
        | pair h h' =>
          obtain ⟨h1, u, d, h2, h3, _⟩ := hs
          exact ⟨_, _, ho, hto, h1, u, d, h2, h3, fun _ => rfl⟩
      | normSyst name procs c' unc toCov symm o =>
        obtain ⟨h1, ⟨h2, us, h3, h4, h5, u, h6, _⟩ | ⟨u, d, h2, h3, h4, h5, h6, _⟩⟩ := hs
        · exact ⟨_, _, ho, hto, h1, .inl ⟨h2, us, h3, h4, h5, u, h6, fun _ => rfl⟩⟩
        · exact ⟨_, _, ho, hto, h1, .inr ⟨u, d, h2, h3, h4, h5, h6, fun _ => rfl⟩⟩
    have heq : (A.base ops).response c p m i = Classical.choose hex := by
      funext θ
      exact dif_pos hex
    obtain ⟨op', h1, h2, h3⟩ := Classical.choose_spec hex
    rw [heq, touches_unique (E.once c p m) ho h1 hto h2]
    exact h3

/-! ### from the calls to the file -/

set_option linter.unusedSectionVars false

theorem logkVal_diff (k u x : ℝ) : logkVal Yields.num .normal k u x = k * (u - x) := rfl

section
variable {cfg : Cfg ℝ} {ops : List (Op ℝ)} {iter : List String → List String} {t : Tensor ℝ} {A : Spec.Additive}
  (F : Writer.Spec.file cfg ops iter t) (hok : Writer.Spec.allOk cfg {} ops) (E : Spec.Sums cfg.allowNeg ops A)
include F hok E

theorem shift_eq (hst : cfg.systType = .normal) {c proc m : String} {i g p : Nat} {n : Nat} (hc : (c, n) ∈ A.chans) (hi : i < n)
    (hcell : Writer.Spec.cellAt t c proc i g p) (hm : m ∈ A.nuisances) (hx0 : A.nominal c proc i ≠ 0) (θ : ℝ) :
    term t.symmetric (run cfg ops) c proc m i θ = A.shift c proc m i θ := by
  have hcf : c ∈ A.chans.map Prod.fst := List.mem_map.2 ⟨_, hc, rfl⟩
  have D := base_describes E
  have hnom : t.sumw g p = A.nominal c proc i := nominal_eq F hok D hcf hcell
  unfold term
  by_cases hto : ∃ op ∈ ops, Writer.Spec.touches c proc m op
  swap
  · have hno : ∀ op ∈ ops, ¬ Writer.Spec.touches c proc m op := fun op h1 h2 => hto ⟨op, h1, h2⟩
    rw [E.silent c hcf proc m hno]
    obtain ⟨h3, _⟩ := untouched_none (cfg := cfg) hno
    rw [varAt_none h3, varAt_none h3]
    simp
  obtain ⟨op, hop, htc⟩ := hto
  have hresp := E.shifts c n hc proc m hm op hop htc i hi
  obtain ⟨l, r, e⟩ := List.append_of_mem hop
  have hpost := D.once c proc m l op r e htc
  have hpre : ∀ o ∈ l, ¬ Writer.Spec.touches c proc m o := by
    intro o ho h
    obtain ⟨l1, l2, rfl⟩ := List.append_of_mem ho
    exact D.once c proc m l1 o (l2 ++ op :: r) (by rw [e]; simp) h op (by simp) htc
  have hinfo := fun ch => flow_false (ch := ch) F hok D hcf
  rw [← hnom] at hresp hx0
  clear D E hop
  subst e
  have hacc : (step cfg op (run cfg l)).2 = .ok () := allOk_mid hok
  have hnum := F.num
  cases op with
  | channel | data | dataCov | pseudo | process | write => exact hresp.elim
  | syst x name p' c' k mirror symm toCov diff o =>
    cases x with
    | single h =>
      obtain ⟨rfl, u, hvu, hf⟩ := hresp
      obtain ⟨rfl, rfl, rfl⟩ : c' = c ∧ p' = proc ∧ m = name := htc
      obtain ⟨ch, n', hch, hn, hadd⟩ := syst_accepted hacc
      have hnorm : (step cfg (.syst (.single h) m p' c' k mirror symm false diff o) (run cfg l)).1.norm = (run cfg l).norm := by
        have hk := (keeps_addSystematic cfg (.single h) m p' c' k mirror symm false diff o).run (run cfg l)
        rw [hadd] at hk
        exact congrArg Core.norm hk
      obtain ⟨L, rfl, hlen, hx, hci, hstay⟩ := read_back F hcell hch hn hnorm
      obtain ⟨_, g2⟩ := fitting_split F.fits
      obtain ⟨_, hh, ht, B, hB, hB'⟩ := single_stored F.dense hch hn ((g2.1 ch hch).1.trans hlen.symm) hadd
      obtain ⟨e1, e2⟩ := hstay m hpost _ none hB (by rw [hh]; exact (untouched_none hpre).2)
      obtain ⟨a, ha, u', hvu', rfl⟩ := hB' i _ hx
      rw [hinfo ch hci] at hvu'
      obtain rfl := varied_unique hvu hvu'
      rw [varAt_half_none e2, varAt_of false (by rw [e1]; exact Option.some_ne_none _) e1 ha, hf, hnum, effType_false, hst,
        logkVal_diff]
      simp only [Logk.maskNorm, hx0, if_false]
      simp
    | pair h h' =>
      obtain ⟨rfl, u, d, hvu, hvd, hf⟩ := hresp
      obtain ⟨rfl, rfl, hbn⟩ : c' = c ∧ p' = proc ∧ Writer.Spec.booksName (.pair h h') symm name m := htc
      obtain ⟨ch, n', hch, hn, hadd⟩ := syst_accepted hacc
      have hnorm : (step cfg (.syst (.pair h h') name p' c' k mirror symm false diff o) (run cfg l)).1.norm = (run cfg l).norm := by
        have hk := (keeps_addSystematic cfg (.pair h h') name p' c' k mirror symm false diff o).run (run cfg l)
        rw [hadd] at hk
        exact congrArg Core.norm hk
      obtain ⟨L, rfl, hlen, hx, hci, hstay⟩ := read_back F hcell hch hn hnorm
      obtain ⟨_, g2⟩ := fitting_split F.fits
      obtain ⟨z1, z2⟩ := g2.1 ch hch
      obtain ⟨_, ht, ⟨B, hB, hB'⟩, hH, hS, hh⟩ := pair_stored F.dense hch hn (z1.1.trans hlen.symm) (z2.1.trans hlen.symm) hadd
      rw [hinfo ch hci, hnum, effType_false, hst] at hB' hH hS
      have hmask : ∀ v : ℝ, Logk.maskNorm (t.sumw g p) v = v := fun v => if_neg hx0
      have hval : ∀ {T : List ℝ} {f : Logk.Asym ℝ → ℝ},
          (∀ i x, L[i]? = some x → ∃ v, T[i]? = some v ∧ ∃ u d, Writer.Spec.varied h false diff i x u ∧ Writer.Spec.varied h' false diff i x d ∧
            v = Logk.maskNorm x (f (Logk.computeAsym Yields.num symm (logkVal Yields.num .normal k u x) (-(logkVal Yields.num .normal k d x))))) →
          T[i]? = some (f (Logk.computeAsym Yields.num symm (k * (u - t.sumw g p)) (-(k * (d - t.sumw g p))))) := by
        intro T f hT
        obtain ⟨v, hv, u', d', k1, k2, rfl⟩ := hT i _ hx
        obtain rfl := varied_unique hvu k1
        obtain rfl := varied_unique hvd k2
        rw [hmask, logkVal_diff, logkVal_diff] at hv
        exact hv
      have hhalf : symm ≠ .none → Writer.Spec.at3 (step cfg (.syst (.pair h h') name p' c' k mirror symm false diff o) (run cfg l)).1.logkhalf c' p' m = none := by
        intro hs
        rw [hh hs]; exact (untouched_none hpre).2
      by_cases hs0 : symm = .none
      · subst hs0
        obtain rfl : m = name := hbn
        obtain ⟨H, hH, hH'⟩ := hH rfl
        have hB2 : Writer.Spec.at3 (step cfg (.syst (.pair h h') m p' c' k mirror .none false diff o) (run cfg l)).1.logkavg c' p' m = some (.dense B) := hB
        obtain ⟨e1, e2⟩ := hstay m hpost _ _ hB2 hH
        have hsym := not_symmetric F.written e2
        rw [varAt_of false (by rw [e1]; exact Option.some_ne_none _) e1 (hval (f := Logk.Asym.avg) hB'),
          varAt_of true (by rw [e1]; exact Option.some_ne_none _) e2 (hval (f := fun a => a.halfdiff.getD 0) hH'), hsym, hf]
        exact paired_asym .none _ _ θ false (fun e => nomatch e)
      · have hhalf := hhalf hs0
        by_cases hs1 : symm = .linear ∨ symm = .quadratic
        · obtain ⟨T, hT, hT'⟩ := hS hs1
          have hne : (name ++ "SymAvg" == name ++ "SymDiff") = false := by
            simp
          have hbn' : m = name ++ "SymAvg" ∨ m = name ++ "SymDiff" := by
            rcases hs1 with rfl | rfl <;> exact hbn
          have havg : avgName symm name = name ++ "SymAvg" := by rcases hs1 with rfl | rfl <;> rfl
          have hd0 : ∀ U D : ℝ, (Logk.computeAsym Yields.num symm U D).halfdiff = none := by
            rcases hs1 with rfl | rfl <;> exact fun _ _ => rfl
          rcases hbn' with rfl | rfl
          · rw [havg] at hB
            obtain ⟨e1, e2⟩ := hstay _ hpost _ none hB hhalf
            have := paired_asym symm (k * (u - t.sumw g p)) (k * (d - t.sumw g p)) θ false (fun e => nomatch e)
            rw [varAt_half_none e2, varAt_of false (by rw [e1]; exact Option.some_ne_none _) e1 (hval (f := Logk.Asym.avg) hB'), hf, hne, ← this, hd0]
            simp
          · obtain ⟨e1, e2⟩ := hstay _ hpost _ none hT hhalf
            have := paired_asym symm (k * (u - t.sumw g p)) (k * (d - t.sumw g p)) θ true (fun _ => hs1)
            rw [varAt_half_none e2, varAt_of false (by rw [e1]; exact Option.some_ne_none _) e1 (hval (f := fun a => a.symDiff.getD 0) hT'), hf, beq_self_eq_true, ← this, hd0]
            simp
        · have hbn' : m = name := by
            cases symm <;> first | exact hbn | exact absurd (.inl rfl) hs1 | exact absurd (.inr rfl) hs1
          subst hbn'
          have havg : avgName symm m = m := by
            cases symm <;> first | rfl | exact absurd (.inl rfl) hs1 | exact absurd (.inr rfl) hs1
          rw [havg] at hB
          obtain ⟨e1, e2⟩ := hstay _ hpost _ none hB hhalf
          have hd0 : ∀ U D : ℝ, (Logk.computeAsym Yields.num symm U D).halfdiff = none := by
            cases symm <;> first | exact fun _ _ => rfl | exact absurd rfl hs0
          have hb : ∀ b U D, Spec.paired symm b U D θ = Spec.paired symm false U D θ := by
            cases symm <;> first | exact fun _ _ _ => rfl | exact absurd (.inl rfl) hs1 | exact absurd (.inr rfl) hs1
          have := paired_asym symm (k * (u - t.sumw g p)) (k * (d - t.sumw g p)) θ false (fun e => nomatch e)
          rw [varAt_half_none e2, varAt_of false (by rw [e1]; exact Option.some_ne_none _) e1 (hval (f := Logk.Asym.avg) hB'), hf, hb, ← this, hd0]
          simp
  | normSyst name procs c' unc toCov symm o =>
    obtain ⟨rfl, hpp, rfl⟩ : c' = c ∧ proc ∈ procs ∧ m = name := htc
    obtain ⟨rfl, ⟨hnd, us, rfl, hlen, hpos, u, hu, hf⟩ | ⟨u, d, rfl, rfl, hu, hd, hsy, hf⟩⟩ := hresp
    swap
    · have hadd : addNormSystematic cfg m [proc] c' [.list [u, d]] false symm o (run cfg l) =
          ((step cfg (.normSyst m [proc] c' [.list [u, d]] false symm o) (run cfg l)).1, .ok ()) := Prod.ext rfl hacc
      obtain ⟨f1, f2⟩ := freshNames_split F.fresh
      obtain ⟨g1, g2⟩ := fitting_split F.fits
      have hs0 : Sized (run cfg l) := sized_run F.dense l f1 g1
      obtain ⟨n', hn⟩ := norm_accepted hadd
      obtain ⟨ch, hch, L, rfl, _⟩ := hs0.norm _ _ _ hn
      obtain ⟨hnorm, hhalf, _, _, B, hB, hB'⟩ := pair_normal cfg hst F.dense _ _ m c' proc u d symm o hsy L hn hadd
      obtain ⟨L', hL', hL, hx, hci, hstay⟩ := read_back F hcell hch hn hnorm
      cases hL'
      obtain ⟨e1, e2⟩ := hstay m hpost _ none hB (by rw [hhalf]; exact (untouched_none hpre).2)
      have hBi := hB' i _ hx
      rw [Logk.maskNorm, if_neg hx0] at hBi
      have hd0 : ∀ U D : ℝ, (Logk.computeAsym Yields.num symm U D).halfdiff = none := by
        rcases hsy with rfl | rfl <;> exact fun _ _ => rfl
      have := paired_asym symm ((u - 1) * t.sumw g p) ((d - 1) * t.sumw g p) θ false (fun e => nomatch e)
      rw [varAt_half_none e2, varAt_of false (by rw [e1]; exact Option.some_ne_none _) e1 hBi, hf, ← this, hd0, hnum]
      simp
    have hadd : addNormSystematic cfg m procs c' (us.map .num) false symm o (run cfg l) =
        ((step cfg (.normSyst m procs c' (us.map .num) false symm o) (run cfg l)).1, .ok ()) := Prod.ext rfl hacc
    obtain ⟨n', hn, he⟩ := norm_normal cfg hst F.dense _ _ m c' procs us symm o hlen hnd hadd proc u hu
    obtain ⟨f1, f2⟩ := freshNames_split F.fresh
    obtain ⟨g1, g2⟩ := fitting_split F.fits
    have hs0 : Sized (run cfg l) := sized_run F.dense l f1 g1
    obtain ⟨ch, hch, _⟩ := hs0.norm _ _ _ hn
    have hnorm : (step cfg (.normSyst m procs c' (us.map .num) false symm o) (run cfg l)).1.norm = (run cfg l).norm := by
      have hk := (keeps_addNormSystematic cfg m procs c' (us.map .num) false symm o).run (run cfg l)
      rw [hadd] at hk
      exact congrArg Core.norm hk
    obtain ⟨L, rfl, hL, hx, hci, hstay⟩ := read_back F hcell hch hn hnorm
    have hhalf : Writer.Spec.at3 (step cfg (.normSyst m procs c' (us.map .num) false symm o) (run cfg l)).1.logkhalf c' proc m = none := by
      have := (keeps_half_norm (cfg := cfg) m c' procs us false symm o).run (run cfg l)
      rw [hadd] at this
      have h' : (step cfg (.normSyst m procs c' (us.map .num) false symm o) (run cfg l)).1.logkhalf = (run cfg l).logkhalf := this
      rw [h']; exact (untouched_none hpre).2
    obtain ⟨e1, e2⟩ := hstay m hpost _ none (he L rfl) hhalf
    have hBi : (L.map fun v => Logk.maskNorm v (1 * (v * u - v)))[i]? = some ((u - 1) * t.sumw g p) := by
      rw [List.getElem?_map, hx]
      simp only [Option.map_some, Logk.maskNorm, hx0, if_false]
      congr 1
      ring
    rw [varAt_half_none e2, varAt_of false (by rw [e1]; exact Option.some_ne_none _) e1 hBi, hf]
    simp

theorem shift_empty (hst : cfg.systType = .normal) {c proc m : String} {i g p : Nat} {n : Nat} (hc : (c, n) ∈ A.chans) (hi : i < n)
    (hcell : Writer.Spec.cellAt t c proc i g p) (hm : m ∈ A.nuisances) (hx0 : A.nominal c proc i = 0) (θ : ℝ) :
    term t.symmetric (run cfg ops) c proc m i θ = 0 := by
  have hcf : c ∈ A.chans.map Prod.fst := List.mem_map.2 ⟨_, hc, rfl⟩
  have D := base_describes E
  have hnom : t.sumw g p = A.nominal c proc i := nominal_eq F hok D hcf hcell
  unfold term
  by_cases hto : ∃ op ∈ ops, Writer.Spec.touches c proc m op
  swap
  · have hno : ∀ op ∈ ops, ¬ Writer.Spec.touches c proc m op := fun op h1 h2 => hto ⟨op, h1, h2⟩
    obtain ⟨h3, _⟩ := untouched_none (cfg := cfg) hno
    rw [varAt_none h3, varAt_none h3]
    simp
  obtain ⟨op, hop, htc⟩ := hto
  have hresp := E.shifts c n hc proc m hm op hop htc i hi
  obtain ⟨l, r, e⟩ := List.append_of_mem hop
  have hpost := D.once c proc m l op r e htc
  have hpre : ∀ o ∈ l, ¬ Writer.Spec.touches c proc m o := by
    intro o ho h
    obtain ⟨l1, l2, rfl⟩ := List.append_of_mem ho
    exact D.once c proc m l1 o (l2 ++ op :: r) (by rw [e]; simp) h op (by simp) htc
  have hinfo := fun ch => flow_false (ch := ch) F hok D hcf
  rw [← hnom] at hresp hx0
  clear D E hop
  subst e
  have hacc : (step cfg op (run cfg l)).2 = .ok () := allOk_mid hok
  have hnum := F.num
  cases op with
  | channel | data | dataCov | pseudo | process | write => exact hresp.elim
  | syst x name p' c' k mirror symm toCov diff o =>
    cases x with
    | single h =>
      obtain ⟨rfl, u, hvu, hf⟩ := hresp
      obtain ⟨rfl, rfl, rfl⟩ : c' = c ∧ p' = proc ∧ m = name := htc
      obtain ⟨ch, n', hch, hn, hadd⟩ := syst_accepted hacc
      have hnorm : (step cfg (.syst (.single h) m p' c' k mirror symm false diff o) (run cfg l)).1.norm = (run cfg l).norm := by
        have hk := (keeps_addSystematic cfg (.single h) m p' c' k mirror symm false diff o).run (run cfg l)
        rw [hadd] at hk
        exact congrArg Core.norm hk
      obtain ⟨L, rfl, hlen, hx, hci, hstay⟩ := read_back F hcell hch hn hnorm
      obtain ⟨_, g2⟩ := fitting_split F.fits
      obtain ⟨_, hh, ht, B, hB, hB'⟩ := single_stored F.dense hch hn ((g2.1 ch hch).1.trans hlen.symm) hadd
      obtain ⟨e1, e2⟩ := hstay m hpost _ none hB (by rw [hh]; exact (untouched_none hpre).2)
      obtain ⟨a, ha, u', hvu', rfl⟩ := hB' i _ hx
      rw [hinfo ch hci] at hvu'
      obtain rfl := varied_unique hvu hvu'
      rw [varAt_half_none e2, varAt_of false (by rw [e1]; exact Option.some_ne_none _) e1 ha]
      simp only [Logk.maskNorm, hx0, if_true]
      simp
    | pair h h' =>
      obtain ⟨rfl, u, d, hvu, hvd, hf⟩ := hresp
      obtain ⟨rfl, rfl, hbn⟩ : c' = c ∧ p' = proc ∧ Writer.Spec.booksName (.pair h h') symm name m := htc
      obtain ⟨ch, n', hch, hn, hadd⟩ := syst_accepted hacc
      have hnorm : (step cfg (.syst (.pair h h') name p' c' k mirror symm false diff o) (run cfg l)).1.norm = (run cfg l).norm := by
        have hk := (keeps_addSystematic cfg (.pair h h') name p' c' k mirror symm false diff o).run (run cfg l)
        rw [hadd] at hk
        exact congrArg Core.norm hk
      obtain ⟨L, rfl, hlen, hx, hci, hstay⟩ := read_back F hcell hch hn hnorm
      obtain ⟨_, g2⟩ := fitting_split F.fits
      obtain ⟨z1, z2⟩ := g2.1 ch hch
      obtain ⟨_, ht, ⟨B, hB, hB'⟩, hH, hS, hh⟩ := pair_stored F.dense hch hn (z1.1.trans hlen.symm) (z2.1.trans hlen.symm) hadd
      rw [hinfo ch hci, hnum, effType_false, hst] at hB' hH hS
      have hmask : ∀ v : ℝ, Logk.maskNorm (t.sumw g p) v = 0 := fun v => if_pos hx0
      have hval : ∀ {T : List ℝ} {f : Logk.Asym ℝ → ℝ},
          (∀ i x, L[i]? = some x → ∃ v, T[i]? = some v ∧ ∃ u d, Writer.Spec.varied h false diff i x u ∧ Writer.Spec.varied h' false diff i x d ∧
            v = Logk.maskNorm x (f (Logk.computeAsym Yields.num symm (logkVal Yields.num .normal k u x) (-(logkVal Yields.num .normal k d x))))) →
          T[i]? = some 0 := by
        intro T f hT
        obtain ⟨v, hv, u', d', k1, k2, rfl⟩ := hT i _ hx
        rw [hmask] at hv
        exact hv
      have hhalf : symm ≠ .none → Writer.Spec.at3 (step cfg (.syst (.pair h h') name p' c' k mirror symm false diff o) (run cfg l)).1.logkhalf c' p' m = none := by
        intro hs
        rw [hh hs]; exact (untouched_none hpre).2
      by_cases hs0 : symm = .none
      · subst hs0
        obtain rfl : m = name := hbn
        obtain ⟨H, hH, hH'⟩ := hH rfl
        have hB2 : Writer.Spec.at3 (step cfg (.syst (.pair h h') m p' c' k mirror .none false diff o) (run cfg l)).1.logkavg c' p' m = some (.dense B) := hB
        obtain ⟨e1, e2⟩ := hstay m hpost _ _ hB2 hH
        have hsym := not_symmetric F.written e2
        rw [varAt_of false (by rw [e1]; exact Option.some_ne_none _) e1 (hval (f := Logk.Asym.avg) hB'),
          varAt_of true (by rw [e1]; exact Option.some_ne_none _) e2 (hval (f := fun a => a.halfdiff.getD 0) hH'), hsym]
        simp
      · have hhalf := hhalf hs0
        by_cases hs1 : symm = .linear ∨ symm = .quadratic
        · obtain ⟨T, hT, hT'⟩ := hS hs1
          have hne : (name ++ "SymAvg" == name ++ "SymDiff") = false := by
            simp
          have hbn' : m = name ++ "SymAvg" ∨ m = name ++ "SymDiff" := by
            rcases hs1 with rfl | rfl <;> exact hbn
          have havg : avgName symm name = name ++ "SymAvg" := by rcases hs1 with rfl | rfl <;> rfl
          have hd0 : ∀ U D : ℝ, (Logk.computeAsym Yields.num symm U D).halfdiff = none := by
            rcases hs1 with rfl | rfl <;> exact fun _ _ => rfl
          rcases hbn' with rfl | rfl
          · rw [havg] at hB
            obtain ⟨e1, e2⟩ := hstay _ hpost _ none hB hhalf
            rw [varAt_half_none e2, varAt_of false (by rw [e1]; exact Option.some_ne_none _) e1 (hval (f := Logk.Asym.avg) hB')]
            simp
          · obtain ⟨e1, e2⟩ := hstay _ hpost _ none hT hhalf
            rw [varAt_half_none e2, varAt_of false (by rw [e1]; exact Option.some_ne_none _) e1 (hval (f := fun a => a.symDiff.getD 0) hT')]
            simp
        · have hbn' : m = name := by
            cases symm <;> first | exact hbn | exact absurd (.inl rfl) hs1 | exact absurd (.inr rfl) hs1
          subst hbn'
          have havg : avgName symm m = m := by
            cases symm <;> first | rfl | exact absurd (.inl rfl) hs1 | exact absurd (.inr rfl) hs1
          rw [havg] at hB
          obtain ⟨e1, e2⟩ := hstay _ hpost _ none hB hhalf
          have hd0 : ∀ U D : ℝ, (Logk.computeAsym Yields.num symm U D).halfdiff = none := by
            cases symm <;> first | exact fun _ _ => rfl | exact absurd rfl hs0
          have hb : ∀ b U D, Spec.paired symm b U D θ = Spec.paired symm false U D θ := by
            cases symm <;> first | exact fun _ _ _ => rfl | exact absurd (.inl rfl) hs1 | exact absurd (.inr rfl) hs1
          rw [varAt_half_none e2, varAt_of false (by rw [e1]; exact Option.some_ne_none _) e1 (hval (f := Logk.Asym.avg) hB')]
          simp
  | normSyst name procs c' unc toCov symm o =>
    obtain ⟨rfl, hpp, rfl⟩ : c' = c ∧ proc ∈ procs ∧ m = name := htc
    obtain ⟨rfl, ⟨hnd, us, rfl, hlen, hpos, u, hu, hf⟩ | ⟨u, d, rfl, rfl, hu, hd, hsy, hf⟩⟩ := hresp
    swap
    · have hadd : addNormSystematic cfg m [proc] c' [.list [u, d]] false symm o (run cfg l) =
          ((step cfg (.normSyst m [proc] c' [.list [u, d]] false symm o) (run cfg l)).1, .ok ()) := Prod.ext rfl hacc
      obtain ⟨f1, f2⟩ := freshNames_split F.fresh
      obtain ⟨g1, g2⟩ := fitting_split F.fits
      have hs0 : Sized (run cfg l) := sized_run F.dense l f1 g1
      obtain ⟨n', hn⟩ := norm_accepted hadd
      obtain ⟨ch, hch, L, rfl, _⟩ := hs0.norm _ _ _ hn
      obtain ⟨hnorm, hhalf, _, _, B, hB, hB'⟩ := pair_normal cfg hst F.dense _ _ m c' proc u d symm o hsy L hn hadd
      obtain ⟨L', hL', hL, hx, hci, hstay⟩ := read_back F hcell hch hn hnorm
      cases hL'
      obtain ⟨e1, e2⟩ := hstay m hpost _ none hB (by rw [hhalf]; exact (untouched_none hpre).2)
      have hBi := hB' i _ hx
      rw [Logk.maskNorm, if_pos hx0] at hBi
      rw [varAt_half_none e2, varAt_of false (by rw [e1]; exact Option.some_ne_none _) e1 hBi]
      simp
    have hadd : addNormSystematic cfg m procs c' (us.map .num) false symm o (run cfg l) =
        ((step cfg (.normSyst m procs c' (us.map .num) false symm o) (run cfg l)).1, .ok ()) := Prod.ext rfl hacc
    obtain ⟨n', hn, he⟩ := norm_normal cfg hst F.dense _ _ m c' procs us symm o hlen hnd hadd proc u hu
    obtain ⟨f1, f2⟩ := freshNames_split F.fresh
    obtain ⟨g1, g2⟩ := fitting_split F.fits
    have hs0 : Sized (run cfg l) := sized_run F.dense l f1 g1
    obtain ⟨ch, hch, _⟩ := hs0.norm _ _ _ hn
    have hnorm : (step cfg (.normSyst m procs c' (us.map .num) false symm o) (run cfg l)).1.norm = (run cfg l).norm := by
      have hk := (keeps_addNormSystematic cfg m procs c' (us.map .num) false symm o).run (run cfg l)
      rw [hadd] at hk
      exact congrArg Core.norm hk
    obtain ⟨L, rfl, hL, hx, hci, hstay⟩ := read_back F hcell hch hn hnorm
    have hhalf : Writer.Spec.at3 (step cfg (.normSyst m procs c' (us.map .num) false symm o) (run cfg l)).1.logkhalf c' proc m = none := by
      have := (keeps_half_norm (cfg := cfg) m c' procs us false symm o).run (run cfg l)
      rw [hadd] at this
      have h' : (step cfg (.normSyst m procs c' (us.map .num) false symm o) (run cfg l)).1.logkhalf = (run cfg l).logkhalf := this
      rw [h']; exact (untouched_none hpre).2
    obtain ⟨e1, e2⟩ := hstay m hpost _ none (he L rfl) hhalf
    have hBi : (L.map fun v => Logk.maskNorm v (1 * (v * u - v)))[i]? = some 0 := by
      rw [List.getElem?_map, hx]
      simp only [Option.map_some, Logk.maskNorm, hx0, if_true]
    rw [varAt_half_none e2, varAt_of false (by rw [e1]; exact Option.some_ne_none _) e1 hBi]
    simp

/-- default rates -/
theorem rate_default (xdef : List ℝ) (hdef : xdef.length = t.signals.length) (b p : Nat) {proc : String} (hp : t.procs[p]? = some proc) :
    (initRates t.procs.length xdef).at b p = Spec.default t xdef proc := by
  obtain ⟨bkgs, h1, n3, p1, p2⟩ := procs_split F hok (base_describes E)
  have q1 : t.signals.Perm A.signals := p1
  have hnd : t.signals.Nodup := q1.nodup_iff.2 E.signalsOnce
  have hle : xdef.length ≤ t.procs.length := by rw [hdef, h1, List.length_append]; omega
  have hr : (initRates t.procs.length xdef).at b p = (xdef ++ List.replicate (t.procs.length - xdef.length) 1).getD p 1 := by
    unfold initRates ParamModels.muCompute
    rw [if_neg (by omega)]
    rfl
  rw [hr]
  unfold Spec.default
  rw [h1] at hp
  by_cases hlt : p < t.signals.length
  · rw [List.getElem?_append_left hlt] at hp
    obtain ⟨_, rfl⟩ := List.getElem?_eq_some_iff.1 hp
    rw [if_pos (List.getElem_mem hlt), hnd.idxOf_getElem p hlt, List.getD_eq_getElem?_getD, List.getD_eq_getElem?_getD, List.getElem?_append_left (by omega)]
  · rw [List.getElem?_append_right (by omega)] at hp
    rw [if_neg fun hs => n3 proc hs proc (List.mem_of_getElem? hp) rfl, List.getD_eq_getElem?_getD, List.getElem?_append_right (by omega)]
    cases h2 : (List.replicate (t.procs.length - xdef.length) (1 : ℝ))[p - xdef.length]? with
    | none => rfl
    | some v => exact List.eq_of_mem_replicate (List.mem_of_getElem? h2)

variable (hit : ∀ l, (iter l).Perm l) (hcon : Writer.Spec.consistent ops)
include hit hcon

/-- expected events of a bin -/
theorem nexp_sum (hst : cfg.systType = .normal) (xdef : List ℝ) (hdef : xdef.length = t.signals.length) (neg : Bool) {c : String} {i a e n : Nat} (hc : (c, n) ∈ A.chans)
    (hR : (c, a, e) ∈ readerFrom 0 t.channelInfo) (hi : i < n) {r : Yields.Rates} {μ : String → ℝ}
    (hr : ∀ g p proc, t.procs[p]? = some proc → r.at g p = if proc ∈ t.signals then μ proc else 1)
    {θ : Nat → ℝ} {θn : String → ℝ} (hθ : ∀ j < t.systs.length, θ j = θn (t.systs.getD j "")) {nexp : Nat → ℝ} {y : Nat → Nat → ℝ}
    (hy : t.yields cfg.systType false (ofFile t .normal xdef neg).model.nparams (ofFile t .normal xdef neg).rinit r θ = .ok (nexp, y)) :
    nexp (a + i) = (A.stored (Spec.default t xdef)).expected μ θn c i := by
  have D := base_describes E
  have hsum : ∀ b, nexp b = ∑ p ∈ range t.procs.length, y b p := by
    obtain ⟨norm, logk, hb, _⟩ := c07_dense_written cfg F.dense ops F.fresh iter t F.written
    have hy := hy
    unfold Tensor.yields at hy
    rw [hb] at hy
    dsimp only at hy
    unfold Yields.Dense.compute at hy
    split at hy
    swap
    · cases hy
    cases hy
    exact fun b => rfl
  obtain ⟨bkgs, h1, n3, p1, p2⟩ := procs_split F hok D
  have hperm : t.systs.Perm A.nuisances := (systs_perm F hok D hit hcon).1
  have he := size_eq F hok D hc hR
  have hcf : c ∈ A.chans.map Prod.fst := List.mem_map.2 ⟨_, hc, rfl⟩
  have hall : nexp (a + i) = (t.procs.map fun p => (if p ∈ t.signals then μ p else 1) * A.nominal c p i + (A.nuisances.map fun m => (A.stored (Spec.default t xdef)).shift c p m i (θn m)).sum).sum := by
    rw [hsum, ← sum_names]
    refine sum_congr rfl fun p hp => ?_
    have hp' := mem_range.1 hp
    have hget : t.procs[p]? = some (t.procs.getD p "") := by
      rw [List.getD_eq_getElem?_getD, List.getElem?_eq_getElem hp']; rfl
    have hcell : Writer.Spec.cellAt t c (t.procs.getD p "") i (a + i) p := ⟨a, e, hR, by omega, rfl, hget⟩
    have hnom : t.sumw (a + i) p = A.nominal c (t.procs.getD p "") i := nominal_eq F hok D hcf hcell
    rw [normal_cell F hst hcell false _ _ r _ (rate_default F hok E xdef hdef _ p hget) ?_ θ nexp y hy, hnom, hr _ _ _ hget, mul_comm]
    swap
    · by_cases h0 : t.signals = []
      · right; unfold Spec.default; rw [h0]; rfl
      · left; exact fun h => h0 (List.length_eq_zero_iff.1 h)
    congr 1
    rw [← (hperm.map _).sum_eq, ← sum_names]
    unfold varSum
    rw [mul_sum]
    refine sum_congr rfl fun j hj => ?_
    have hj' := mem_range.1 hj
    have hm : t.systs.getD j "" ∈ A.nuisances := by
      refine hperm.mem_iff.1 ?_
      rw [List.getD_eq_getElem?_getD, List.getElem?_eq_getElem hj']
      exact List.getElem_mem hj'
    rw [hθ j hj']
    show _ * term _ _ _ _ _ _ _ = if A.nominal c (t.procs.getD p "") i = 0 then 0 else _ * _
    split_ifs with h0
    · rw [shift_empty F hok E hst hc hi hcell hm h0, mul_zero]
    · rw [shift_eq F hok E hst hc hi hcell hm h0]
  have q1 : t.signals.Perm A.signals := p1
  have q2 : bkgs.Perm A.backgrounds := p2
  unfold Spec.Additive.expected
  show _ = (A.signals.map fun p => μ p * A.nominal c p i).sum + (A.backgrounds.map fun p => A.nominal c p i).sum + ((A.signals ++ A.backgrounds).map fun p => (A.nuisances.map fun m => (A.stored (Spec.default t xdef)).shift c p m i (θn m)).sum).sum
  rw [hall, h1, List.sum_map_add, (((q1.append q2).map _).sum_eq : ((t.signals ++ bkgs).map fun p => (A.nuisances.map fun m => (A.stored (Spec.default t xdef)).shift c p m i (θn m)).sum).sum = _)]
  congr 1
  rw [List.map_append, List.sum_append, ← (q1.map _).sum_eq, ← (q2.map _).sum_eq]
  congr 1
  · congr 1
    exact List.map_congr_left fun p hp => by rw [if_pos hp]
  · congr 1
    exact List.map_congr_left fun p hp => by rw [if_neg fun hs => n3 p hs p hp rfl, one_mul]

theorem additive_aux (hst : cfg.systType = .normal) (xdef : List ℝ) (hdef : xdef.length = t.signals.length) (neg : Bool) :
    ∃ C, ∀ x, (ofFile t .normal xdef neg).loss x =
      .ok (some ((A.stored (Spec.default t xdef)).nll (Spec.strength t neg (List.ofFn x)) (Spec.nuisance t (List.ofFn x)) + C)) := by
  have D := base_describes E
  refine ⟨(A.chans.map fun c => ∑ i ∈ range c.2, (A.obs c.1 i * lognobs (A.obs c.1 i) - A.obs c.1 i)).sum, fun x => ?_⟩
  obtain ⟨r, nexp, y, h1, h2, h3⟩ := fit_yields F .normal hst xdef neg x
  rw [loss_of (G := ofFile t .normal xdef neg) (nexp' := nexp) (lb := none) (ps := []) h1 rfl rfl, fit_constraints F hit hcon]
  obtain ⟨hperm, hnd⟩ := systs_perm F hok D hit hcon
  have hθ : ∀ j < t.systs.length, (ofFile t .normal xdef neg).theta x j = Spec.nuisance t (List.ofFn x) (t.systs.getD j "") := by
    intro j hj
    have := theta_at .normal xdef neg hnd x j hj
    rw [← this]
    exact dif_pos hj
  have hln : (ofFile t .normal xdef neg).ln nexp = ∑ b ∈ range t.nbins, poissonBin (real (t.dataObs b)) (nexp b) :=
    Fin.sum_univ_eq_sum_range (fun b => poissonBin (real (t.dataObs b)) (nexp b)) t.nbins
  have hbins : _ = (A.chans.map _).sum := sum_bins F hok D (fun b => poissonBin (real (t.dataObs b)) (nexp b)) (fun c i =>
      ((A.stored (Spec.default t xdef)).expected (Spec.strength t neg (List.ofFn x)) (Spec.nuisance t (List.ofFn x)) c i -
        A.obs c i * Real.log ((A.stored (Spec.default t xdef)).expected (Spec.strength t neg (List.ofFn x)) (Spec.nuisance t (List.ofFn x)) c i)) +
      (A.obs c i * lognobs (A.obs c i) - A.obs c i)) (by
    intro c n a e hc hR i hi
    have ho : t.dataObs (a + i) = .fin (A.obs c i) := obs_eq F hok D hc hR hi
    rw [ho, nexp_sum F hok E hit hcon hst xdef hdef neg hc hR hi h3 hθ h2, ← poissonBin_eq]
    rfl)
  have hcw : _ = (A.nuisances.map fun m => if A.constrained m then Spec.nuisance t (List.ofFn x) m ^ 2 / 2 else 0).sum :=
    weights_eq F hok D hit hcon hperm (Spec.nuisance t (List.ofFn x))
  rw [hln, hbins, hcw]
  unfold Spec.Additive.nll
  have s1 : (A.stored (Spec.default t xdef)).obs = A.obs := rfl
  have s2 : (A.stored (Spec.default t xdef)).constrained = A.constrained := rfl
  have s3 : (A.stored (Spec.default t xdef)).chans = A.chans := rfl
  have s4 : (A.stored (Spec.default t xdef)).nuisances = A.nuisances := rfl
  simp only [s1, s2, s3, s4, sum_add_distrib, List.sum_map_add]
  congr 2
  have e1 : (Regularization.penaltyTerm (ofFile t .normal xdef neg).tau2 []).getD 0 = 0 := penaltyTerm_zero _ 0
  have e2 : (Ext.computeExternal (ofFile t .normal xdef neg).ext (List.ofFn x)).getD 0 = 0 := rfl
  rw [e1, e2]
  show _ + _ + (0 : ℝ) + 0 + 0 = _
  ring

end

/-- C113 (dense mode): A history of accepted calls that describes an analysis with additive variations on paper, written with the
normal type and read back: the loss that is minimised is, at every point and up to one constant, the negative logarithm of the
likelihood of that analysis, except that variations of empty bins are dropped and that those of a signal are scaled by its default strength. -/
theorem c113_stored (cfg : Writer.Cfg ℝ) (ops : List (Op ℝ)) (iter : List String → List String) (t : Tensor ℝ) (A : Spec.Additive)
    (F : Writer.Spec.file cfg ops iter t) (hok : Writer.Spec.allOk cfg {} ops) (hst : cfg.systType = .normal)
    (hit : ∀ l, (iter l).Perm l) (hcon : Writer.Spec.consistent ops) (E : Spec.Sums cfg.allowNeg ops A)
    (xdef : List ℝ) (hdef : xdef.length = t.signals.length) (neg : Bool) :
    ∃ C, ∀ x, (ofFile t .normal xdef neg).loss x =
      .ok (some ((A.stored (Spec.default t xdef)).nll (Spec.strength t neg (List.ofFn x)) (Spec.nuisance t (List.ofFn x)) + C)) :=
  additive_aux F hok E hit hcon hst xdef hdef neg

/-- nothing is left out of the paper when no variation touches an empty bin -/
theorem stored_nll {b : Bool} {ops : List (Op ℝ)} {A : Spec.Additive} (E : Spec.Sums b ops A) (hfill : Spec.filled ops A) (δ : String → ℝ)
    (μ θ : String → ℝ) : (A.stored δ).nll μ θ = (A.scaled δ).nll μ θ := by
  have key : ∀ c ∈ A.chans, ∀ i < c.2, (A.stored δ).expected μ θ c.1 i = (A.scaled δ).expected μ θ c.1 i := by
    intro c hc i hi
    unfold Spec.Additive.expected
    refine congrArg₂ (· + ·) rfl (congrArg List.sum (List.map_congr_left fun p _ => congrArg List.sum (List.map_congr_left fun m hm => ?_)))
    show (if A.nominal c.1 p i = 0 then 0 else δ p * A.shift c.1 p m i (θ m)) = δ p * A.shift c.1 p m i (θ m)
    split_ifs with h0
    · rw [E.silent c.1 (List.mem_map.2 ⟨c, hc, rfl⟩) p m (fun op ho hto => hfill c.1 c.2 hc p m hm ⟨op, ho, hto⟩ i hi h0) i (θ m), mul_zero]
    · rfl
  unfold Spec.Additive.nll
  refine congrArg₂ (· + ·) (congrArg List.sum (List.map_congr_left fun c hc => sum_congr rfl fun i hi => ?_)) rfl
  rw [key c hc i (mem_range.1 hi)]
  rfl

theorem scaled_one (A : Spec.Additive) {δ : String → ℝ} (h : ∀ p, δ p = 1) : A.scaled δ = A := by
  unfold Spec.Additive.scaled
  simp only [h, one_mul]

/-- C113 (dense mode, no variations of empty bins): A history of accepted calls that describes an
analysis with additive variations on paper, written with the normal type and read back: the loss that is minimised is, at every
point and up to one constant, the negative logarithm of the likelihood of that analysis with the variations of a signal scaled by its default
strength, the signal strengths and nuisances being the parameters at the places of their names. -/
theorem c113_likelihood_partial (cfg : Writer.Cfg ℝ) (ops : List (Op ℝ)) (iter : List String → List String) (t : Tensor ℝ) (A : Spec.Additive)
    (F : Writer.Spec.file cfg ops iter t) (hok : Writer.Spec.allOk cfg {} ops) (hst : cfg.systType = .normal)
    (hit : ∀ l, (iter l).Perm l) (hcon : Writer.Spec.consistent ops) (E : Spec.Sums cfg.allowNeg ops A) (hfill : Spec.filled ops A)
    (xdef : List ℝ) (hdef : xdef.length = t.signals.length) (neg : Bool) :
    ∃ C, ∀ x, (ofFile t .normal xdef neg).loss x =
      .ok (some ((A.scaled (Spec.default t xdef)).nll (Spec.strength t neg (List.ofFn x)) (Spec.nuisance t (List.ofFn x)) + C)) := by
  obtain ⟨C, h⟩ := c113_stored cfg ops iter t A F hok hst hit hcon E xdef hdef neg
  exact ⟨C, fun x => by rw [h x, stored_nll E hfill]⟩

/-- C113: Two histories that describe the same analysis, in whatever order and with whatever else in masked channels, give the
same likelihood up to one constant, variations of empty bins or not: the losses at points that assign the same values to the same names
differ by it, when the default strengths are the same too. -/
theorem c113_order (cfg cfg' : Writer.Cfg ℝ) (ops ops' : List (Op ℝ)) (iter iter' : List String → List String) (t t' : Tensor ℝ) (A : Spec.Additive)
    (F : Writer.Spec.file cfg ops iter t) (hok : Writer.Spec.allOk cfg {} ops) (hst : cfg.systType = .normal)
    (hit : ∀ l, (iter l).Perm l) (hcon : Writer.Spec.consistent ops) (E : Spec.Sums cfg.allowNeg ops A)
    (F' : Writer.Spec.file cfg' ops' iter' t') (hok' : Writer.Spec.allOk cfg' {} ops') (hst' : cfg'.systType = .normal)
    (hit' : ∀ l, (iter' l).Perm l) (hcon' : Writer.Spec.consistent ops') (E' : Spec.Sums cfg'.allowNeg ops' A) (xdef xdef' : List ℝ)
    (hdef : xdef.length = t.signals.length) (hdef' : xdef'.length = t'.signals.length)
    (hsame : ∀ p ∈ A.signals, Spec.default t xdef p = Spec.default t' xdef' p) (neg : Bool) :
    ∃ C, ∀ x x' v v', (∀ p ∈ A.signals, Spec.strength t neg (List.ofFn x) p = Spec.strength t' neg (List.ofFn x') p) →
      (∀ m ∈ A.nuisances, Spec.nuisance t (List.ofFn x) m = Spec.nuisance t' (List.ofFn x') m) →
      (ofFile t .normal xdef neg).loss x = .ok (some v) → (ofFile t' .normal xdef' neg).loss x' = .ok (some v') → v = v' + C := by
  obtain ⟨C, h⟩ := c113_stored cfg ops iter t A F hok hst hit hcon E xdef hdef neg
  obtain ⟨C', h'⟩ := c113_stored cfg' ops' iter' t' A F' hok' hst' hit' hcon' E' xdef' hdef' neg
  obtain ⟨_, _, _, p1, _⟩ := procs_split F hok (base_describes E)
  obtain ⟨_, _, _, p1', _⟩ := procs_split F' hok' (base_describes E')
  have q : t.signals.Perm A.signals := p1
  have q' : t'.signals.Perm A.signals := p1'
  have hδ : Spec.default t xdef = Spec.default t' xdef' := by
    funext p
    by_cases hp : p ∈ A.signals
    · exact hsame p hp
    · unfold Spec.default
      rw [if_neg fun h => hp (q.mem_iff.1 h), if_neg fun h => hp (q'.mem_iff.1 h)]
  rw [hδ] at h
  refine ⟨C - C', fun x x' v v' h1 h2 e e' => ?_⟩
  rw [h x] at e
  rw [h' x'] at e'
  generalize hB : A.stored (Spec.default t' xdef') = B at e e'
  have b1 : B.signals = A.signals := by rw [← hB]; rfl
  have b2 : B.nuisances = A.nuisances := by rw [← hB]; rfl
  rw [← b1] at h1
  rw [← b2] at h2
  have he : ∀ c i, B.expected (Spec.strength t neg (List.ofFn x)) (Spec.nuisance t (List.ofFn x)) c i =
      B.expected (Spec.strength t' neg (List.ofFn x')) (Spec.nuisance t' (List.ofFn x')) c i := fun c i => by
    unfold Spec.Additive.expected
    refine congrArg₂ (· + ·) (congrArg₂ (· + ·) (congrArg List.sum (List.map_congr_left fun p hp => by rw [h1 p hp])) rfl)
      (congrArg List.sum (List.map_congr_left fun p _ => congrArg List.sum (List.map_congr_left fun m hm => by rw [h2 m hm])))
  have hn : B.nll (Spec.strength t neg (List.ofFn x)) (Spec.nuisance t (List.ofFn x)) =
      B.nll (Spec.strength t' neg (List.ofFn x')) (Spec.nuisance t' (List.ofFn x')) := by
    unfold Spec.Additive.nll
    simp only [he]
    congr 2
    exact List.map_congr_left fun m hm => by rw [h2 m hm]
  have e1 := Option.some.inj (Except.ok.inj e)
  have e2 := Option.some.inj (Except.ok.inj e')
  rw [← e1, ← e2, hn]
  ring

/-! ### concrete cases -/

namespace Ex

open Writer.Ex in
theorem goodN : goodB cfgN {} opsL = true ∧ okB (write cfgN id (run cfgN opsL)).2 (fun t => viewL t && t.signals == ["p"]) = true ∧ allOkB cfgN {} opsL = true := by
  simp only [goodB, allOkB, run, runOps, opsL, step, addProcess, addData, fitsB, sizeB, optB,
    Option.getD_none, hr_vars _ 1 2 one_pos.le two_pos.le, hr_sumw2 _ 1 2 one_pos.le two_pos.le, hr_vars _ 2 3 two_pos.le three_pos.le,
    hr_vars _ 1 1 one_pos.le one_pos.le]
  refine ⟨?_, ?_, ?_⟩ <;> decide +kernel

/-- the analysis with additive variations on paper -/
def paperN : Spec.Additive where
  chans := [("a", 2)]
  signals := ["p"]
  backgrounds := ["q"]
  nuisances := ["n", "o", "r"]
  constrained := fun m => m != "r"
  obs := fun _ i => [2, 3].getD i 0
  nominal := fun _ p i => if p = "p" ∨ p = "q" then [1, 2].getD i 0 else 0
  shift := fun _ p m i θ =>
    if p = "p" ∧ m = "n" then Spec.paired .none false (1 * ([2, 3].getD i 0 - [1, 2].getD i 0)) (1 * ([1, 1].getD i 0 - [1, 2].getD i 0)) θ
    else if p = "q" ∧ m = "o" then 1 * ([1, 1].getD i 0 - [1, 2].getD i 0) * θ
    else if p = "q" ∧ m = "r" then (2 - 1) * [1, 2].getD i 0 * θ
    else if p = "p" ∧ m = "r" then (3 - 1) * [1, 2].getD i 0 * θ
    else 0

theorem sumsN : Spec.Sums true opsL paperN where
  named := describesL.named
  canonical := describesL.canonical
  chansOnce := describesL.chansOnce
  chans := describesL.chans
  signalsOnce := describesL.signalsOnce
  signals := describesL.signals
  backgroundsOnce := describesL.backgroundsOnce
  backgrounds := describesL.backgrounds
  nuisancesOnce := describesL.nuisancesOnce
  nuisances := describesL.nuisances
  constrained := describesL.constrained
  obs := describesL.obs
  nominal := describesL.nominal
  absent := describesL.absent
  once := describesL.once
  silent := by
    intro c hc p m hno i θ
    rcases List.mem_singleton.1 (show c ∈ ["a"] from hc) with rfl
    have h : ¬ (p = "p" ∧ m = "n") ∧ ¬ (p = "q" ∧ m = "o") ∧ ¬ (p = "q" ∧ m = "r") ∧ ¬ (p = "p" ∧ m = "r") := by
      simp only [opsL, List.mem_cons, List.not_mem_nil, or_false, forall_eq_or_imp, forall_eq, Writer.Spec.touches, Writer.Spec.booksName] at hno
      refine ⟨?_, ?_, ?_, ?_⟩ <;> rintro ⟨rfl, rfl⟩ <;> simp at hno
    show (if p = "p" ∧ m = "n" then _ else _) = (0 : ℝ)
    rw [if_neg h.1, if_neg h.2.1, if_neg h.2.2.1, if_neg h.2.2.2]
  shifts := by
    intro c n hcn p m hm op ho hto i hi
    simp only [paperN, List.mem_singleton, Prod.mk.injEq] at hcn
    obtain ⟨rfl, rfl⟩ := hcn
    simp only [opsL, List.mem_cons, List.not_mem_nil, or_false] at ho
    rcases ho with rfl | rfl | rfl | rfl | rfl | rfl | rfl | rfl | rfl | rfl <;>
      simp only [Writer.Spec.touches, Writer.Spec.booksName] at hto
    · obtain ⟨_, rfl, rfl⟩ := hto
      refine ⟨rfl, [2, 3].getD i 0, [1, 1].getD i 0, ⟨_, hr_vals hi, rfl⟩, ⟨_, hr_vals hi, rfl⟩, fun θ => ?_⟩
      rfl
    · obtain ⟨_, rfl, rfl⟩ := hto
      refine ⟨rfl, [1, 1].getD i 0, ⟨_, hr_vals hi, rfl⟩, fun θ => ?_⟩
      simp [paperN]
    · simp at hto
    · obtain ⟨_, hp, rfl⟩ := hto
      refine ⟨rfl, .inl ⟨by decide, [2, 3], rfl, rfl, by simp, ?_⟩⟩
      simp only [List.mem_cons, List.not_mem_nil, or_false] at hp
      rcases hp with rfl | rfl
      · exact ⟨2, by simp, fun θ => by simp [paperN]⟩
      · exact ⟨3, by simp, fun θ => by simp [paperN]⟩

theorem filledN : Spec.filled opsL paperN := by
  intro c n hcn p m _ ⟨op, ho, hto⟩ i hi
  simp only [paperN, List.mem_singleton, Prod.mk.injEq] at hcn
  obtain ⟨rfl, rfl⟩ := hcn
  have hp : p = "p" ∨ p = "q" := by
    simp only [opsL, List.mem_cons, List.not_mem_nil, or_false] at ho
    rcases ho with rfl | rfl | rfl | rfl | rfl | rfl | rfl | rfl | rfl | rfl <;>
      simp only [Writer.Spec.touches, Writer.Spec.booksName, List.mem_cons, List.not_mem_nil, or_false] at hto
    · exact .inl hto.2.1.symm
    · exact .inr hto.2.1.symm
    · simp at hto
    · exact hto.2.1.symm
  show (if p = "p" ∨ p = "q" then [1, 2].getD i 0 else 0) ≠ (0 : ℝ)
  rw [if_pos hp]
  match i, hi with
  | 0, _ => exact one_ne_zero
  | 1, _ => exact two_ne_zero

end Ex

/-- a pair of factors 3 and 1/2 shifts a content of 2 by 5/2 per unit of the nuisance -/
example : Spec.Shifts "p" "n" 0 2 (fun θ => 5 / 2 * θ) (.normSyst "n" ["p"] "a" [.list [3, 1 / 2]] false .average {}) := by
  refine ⟨rfl, .inr ⟨3, 1 / 2, rfl, rfl, by norm_num, by norm_num, .inl rfl, fun θ => ?_⟩⟩
  simp only [Spec.paired]
  ring

/-- The hypotheses of `c113_likelihood_partial`, `c113_stored` and `c113_order` are met: the loss of a file with a masked channel, two processes, an
asymmetric, a mirrored and a free normalisation nuisance is the likelihood on paper, here
written out in the second bin with nominal contents of 2 and a default strength of 3. -/
example : ∃ t C, t.procs = ["p", "q"] ∧ t.systs = ["r", "n", "o"] ∧ (∀ x, (ofFile t .normal [3] true).loss x =
      .ok (some ((Ex.paperN.scaled (Spec.default t [3])).nll (Spec.strength t true (List.ofFn x)) (Spec.nuisance t (List.ofFn x)) + C))) ∧
    ∀ μ θ : String → ℝ, θ "n" = 1 →
      (Ex.paperN.scaled (Spec.default t [3])).expected μ θ "a" 1 = μ "p" * 2 + 2 + (3 * (1 + 4 * θ "r") + (2 * θ "r" - θ "o")) := by
  obtain ⟨h1, h2, h3⟩ := Ex.goodN
  obtain ⟨t, ht, hv⟩ := Writer.Ex.okB_iff h2
  obtain ⟨g1, g2⟩ := Writer.Ex.goodB_iff _ _ _ h1
  simp only [Ex.viewL, Bool.and_eq_true, beq_iff_eq] at hv
  obtain ⟨C, hC⟩ := c113_likelihood_partial Ex.cfgN Ex.opsL id t Ex.paperN ⟨rfl, rfl, g1, g2, ht⟩ (Writer.Ex.allOkB_iff _ _ _ h3) rfl
    (fun l => .refl l) Ex.consistentL Ex.sumsN Ex.filledN [3] (by rw [hv.2]; rfl) true
  refine ⟨t, C, hv.1.1, hv.1.2, hC, fun μ θ hθ => ?_⟩
  simp [Spec.Additive.expected, Spec.Additive.scaled, Spec.default, hv.2, Ex.paperN, Spec.paired, Spec.smooth, hθ]
  ring

namespace Ex

open Writer.Ex in
/-- a background, a signal with content `z` in the first bin, and a variation that adds one event to that bin -/
def opsZ (z : ℝ) : List (Op ℝ) := [.channel [ax 2] (some "a") false false,
  .process (hr [1, 2]) "q" "a" false none, .process (hr [z, 2]) "p" "a" true none, .data (hr [2, 4]) "a" none,
  .syst (.single (hr [z + 1, 2])) "n" "p" "a" 1 true .average false false {}]

def viewZ (t : Tensor ℝ) : Bool := t.procs == ["p", "q"] && t.systs == ["n"] && t.signals == ["p"]

open Writer.Ex in
theorem goodZ {z : ℝ} (hz : z = 0 ∨ z = 1) : goodB cfgN {} (opsZ z) = true ∧ okB (write cfgN id (run cfgN (opsZ z))).2 viewZ = true ∧
    allOkB cfgN {} (opsZ z) = true := by
  rcases hz with rfl | rfl
  · simp only [goodB, allOkB, run, runOps, opsZ, step, addProcess, addData, fitsB, sizeB, optB,
      Option.getD_none, hr_vars _ 1 2 one_pos.le two_pos.le, hr_sumw2 _ 1 2 one_pos.le two_pos.le, hr_vars _ 2 4 two_pos.le four_pos.le,
      hr_vars _ 0 2 le_rfl two_pos.le, hr_sumw2 _ 0 2 le_rfl two_pos.le, hr_vars _ (0 + 1) 2 (by norm_num) two_pos.le]
    refine ⟨?_, ?_, ?_⟩ <;> decide +kernel
  · simp only [goodB, allOkB, run, runOps, opsZ, step, addProcess, addData, fitsB, sizeB, optB,
      Option.getD_none, hr_vars _ 1 2 one_pos.le two_pos.le, hr_sumw2 _ 1 2 one_pos.le two_pos.le, hr_vars _ 2 4 two_pos.le four_pos.le,
      hr_vars _ (1 + 1) 2 (by norm_num) two_pos.le]
    refine ⟨?_, ?_, ?_⟩ <;> decide +kernel

/-- the analysis on paper -/
def paperZ (z : ℝ) : Spec.Additive where
  chans := [("a", 2)]
  signals := ["p"]
  backgrounds := ["q"]
  nuisances := ["n"]
  constrained := fun _ => true
  obs := fun _ i => [2, 4].getD i 0
  nominal := fun _ p i => if p = "p" then [z, 2].getD i 0 else if p = "q" then [1, 2].getD i 0 else 0
  shift := fun _ p m i θ => if p = "p" ∧ m = "n" then 1 * ([z + 1, 2].getD i 0 - [z, 2].getD i 0) * θ else 0

theorem sumsZ (z : ℝ) : Spec.Sums true (opsZ z) (paperZ z) where
  named := by simp [opsZ]
  canonical := by
    intro h p c s v hm flow
    simp only [opsZ, List.mem_cons, List.not_mem_nil, or_false, reduceCtorEq, false_or, Op.process.injEq] at hm
    rcases hm with ⟨rfl, _⟩ | ⟨rfl, _⟩ <;> simp [Writer.Ex.hr, HIn.flatCsr]
  chansOnce := by simp [paperZ]
  chans := by
    simp [opsZ, paperZ]
    rintro _ n rfl
    exact Iff.rfl
  signalsOnce := by simp [paperZ]
  signals := by simp [opsZ, paperZ]
  backgroundsOnce := by simp [paperZ]
  backgrounds := by simp [opsZ, paperZ]
  nuisancesOnce := by simp [paperZ]
  nuisances := by
    intro m
    simp [opsZ, paperZ, Writer.Spec.asked, Writer.Spec.asks]
    simp only [eq_comm]
  constrained := by simp [opsZ, paperZ, Writer.Spec.asked, Writer.Spec.asks]
  obs := by
    intro h c v hm i x hx
    simp only [opsZ, List.mem_cons, List.not_mem_nil, or_false, reduceCtorEq, false_or, Op.data.injEq] at hm
    obtain ⟨rfl, _⟩ := hm
    exact vals_hr hx
  nominal := by
    intro c _ h p s v hm i x hx
    simp only [opsZ, List.mem_cons, List.not_mem_nil, or_false, reduceCtorEq, false_or, Op.process.injEq] at hm
    rcases hm with ⟨rfl, rfl, _⟩ | ⟨rfl, rfl, _⟩
    · rw [vals_hr hx]; rfl
    · rw [vals_hr hx]; rfl
  absent := by
    intro c hc p hp i
    rcases List.mem_singleton.1 (show c ∈ ["a"] from hc) with rfl
    show (if p = "p" then _ else if p = "q" then _ else (0 : ℝ)) = 0
    rw [if_neg, if_neg]
    · rintro rfl
      exact hp (Writer.Ex.hr [1, 2]) false none (by simp [opsZ])
    · rintro rfl
      exact hp (Writer.Ex.hr [z, 2]) true none (by simp [opsZ])
  once := by
    rintro c p m l op r e h o ho
    have : (opsZ z).Pairwise fun o o' => Writer.Spec.touches c p m o → ¬ Writer.Spec.touches c p m o' := by
      simp [opsZ, Writer.Spec.touches]
    rw [e] at this
    exact (List.pairwise_cons.1 (List.pairwise_append.1 this).2.1).1 o ho h
  silent := by
    intro c hc p m hno i θ
    rcases List.mem_singleton.1 (show c ∈ ["a"] from hc) with rfl
    refine if_neg ?_
    rintro ⟨rfl, rfl⟩
    simp [opsZ, Writer.Spec.touches, Writer.Spec.booksName] at hno
  shifts := by
    intro c n hcn p m hm op ho hto i hi
    simp only [paperZ, List.mem_singleton, Prod.mk.injEq] at hcn
    obtain ⟨rfl, rfl⟩ := hcn
    simp only [opsZ, List.mem_cons, List.not_mem_nil, or_false] at ho
    rcases ho with rfl | rfl | rfl | rfl | rfl <;>
      simp only [Writer.Spec.touches, Writer.Spec.booksName] at hto
    obtain ⟨_, rfl, rfl⟩ := hto
    exact ⟨rfl, [z + 1, 2].getD i 0, ⟨_, hr_vals hi, rfl⟩, fun θ => rfl⟩

theorem consistentZ (z : ℝ) : Writer.Spec.consistent (opsZ z) := by
  intro b b' h h' e h1 h2
  have := (sumsZ z).constrained b h h1
  rw [← this, e, (sumsZ z).constrained b' h' h2]

theorem filledZ {z : ℝ} (hz : z ≠ 0) : Spec.filled (opsZ z) (paperZ z) := by
  intro c n hcn p m _ ⟨op, ho, hto⟩ i hi
  simp only [paperZ, List.mem_singleton, Prod.mk.injEq] at hcn
  obtain ⟨rfl, rfl⟩ := hcn
  simp only [opsZ, List.mem_cons, List.not_mem_nil, or_false] at ho
  rcases ho with rfl | rfl | rfl | rfl | rfl <;>
    simp only [Writer.Spec.touches, Writer.Spec.booksName] at hto
  obtain ⟨_, rfl, rfl⟩ := hto
  match i, hi with
  | 0, _ => exact hz
  | 1, _ => exact two_ne_zero

/-- losses of two points of the file against the paper -/
theorem differ {z d : ℝ} (hz : z = 0 ∨ z = 1) : ∃ t, Writer.Spec.file cfgN (opsZ z) id t ∧ Writer.Spec.allOk cfgN {} (opsZ z) ∧ t.signals = ["p"] ∧
    ∀ C, (∀ x, (ofFile t .normal [d] true).loss x = .ok (some ((paperZ z).nll (Spec.strength t true (List.ofFn x)) (Spec.nuisance t (List.ofFn x)) + C))) →
      ∃ δ μ : String → ℝ, δ "p" = d ∧ μ "p" = 0 ∧ ∃ θ θ' : String → ℝ, θ "n" = 0 ∧ θ' "n" = 1 ∧
        ((paperZ z).stored δ).nll μ θ' - ((paperZ z).stored δ).nll μ θ = (paperZ z).nll μ θ' - (paperZ z).nll μ θ := by
  obtain ⟨h1, h2, h3⟩ := goodZ hz
  obtain ⟨t, ht, hv⟩ := Writer.Ex.okB_iff h2
  obtain ⟨g1, g2⟩ := Writer.Ex.goodB_iff _ _ _ h1
  simp only [viewZ, Bool.and_eq_true, beq_iff_eq] at hv
  obtain ⟨⟨v1, v2⟩, v3⟩ := hv
  have F : Writer.Spec.file cfgN (opsZ z) id t := ⟨rfl, rfl, g1, g2, ht⟩
  refine ⟨t, F, Writer.Ex.allOkB_iff _ _ _ h3, v3, fun C hC => ?_⟩
  obtain ⟨C', hC'⟩ := c113_stored cfgN (opsZ z) id t (paperZ z) F (Writer.Ex.allOkB_iff _ _ _ h3) rfl (fun l => .refl l) (consistentZ z) (sumsZ z) [d] (by rw [v3]; rfl) true
  have key : ∀ θ : String → ℝ, ∃ θn μ : String → ℝ, θn "n" = θ "n" ∧ μ "p" = 0 ∧
      ((paperZ z).stored (Spec.default t [d])).nll μ θn + C' = (paperZ z).nll μ θn + C := by
    intro θ
    refine ⟨_, _, ?_, ?_, Option.some.inj (Except.ok.inj ((hC' (point t (fun _ => 0) θ _)).symm.trans (hC (point t (fun _ => 0) θ _))))⟩
    · exact point_nuisance t _ θ [d] true (by rw [v2]; exact List.mem_singleton.2 rfl)
    · unfold Spec.strength
      rw [if_pos rfl, point_signal t _ _ [d] true (by rw [v3]; exact List.mem_singleton.2 rfl)]
  have hμ : ∀ (B : Spec.Additive) (μ μ' θ : String → ℝ), B.signals = ["p"] → μ "p" = μ' "p" → B.nll μ θ = B.nll μ' θ := by
    intro B μ μ' θ hB h
    unfold Spec.Additive.nll Spec.Additive.expected
    rw [hB]
    simp only [List.map_singleton, h]
  obtain ⟨θ, μ, k1, k2, k3⟩ := key fun _ => 0
  obtain ⟨θ', μ', k1', k2', k3'⟩ := key fun _ => 1
  refine ⟨Spec.default t [d], μ, ?_, k2, θ, θ', k1, k1', ?_⟩
  · unfold Spec.default
    rw [v3]; rfl
  · rw [hμ _ μ' μ _ rfl (k2'.trans k2.symm), hμ _ μ' μ _ rfl (k2'.trans k2.symm)] at k3'
    linarith

end Ex

/-- The code violates C113: a variation that fills a bin in which the process has no nominal content is dropped.  All other conditions of
`c113_likelihood_partial` are met. -/
theorem c113_empty_violated : ∃ (cfg : Writer.Cfg ℝ) (ops : List (Op ℝ)) (t : Tensor ℝ) (A : Spec.Additive),
    Writer.Spec.file cfg ops id t ∧ Writer.Spec.allOk cfg {} ops ∧ cfg.systType = .normal ∧ Writer.Spec.consistent ops ∧ Spec.Sums cfg.allowNeg ops A ∧ t.signals.length = 1 ∧
    ¬ ∃ C, ∀ x, (ofFile t .normal [1] true).loss x =
      .ok (some ((A.scaled (Spec.default t [1])).nll (Spec.strength t true (List.ofFn x)) (Spec.nuisance t (List.ofFn x)) + C)) := by
  obtain ⟨t, F, hok, hs, h⟩ := Ex.differ (z := 0) (d := 1) (.inl rfl)
  refine ⟨_, _, t, _, F, hok, rfl, Ex.consistentZ 0, Ex.sumsZ 0, by rw [hs]; rfl, fun ⟨C, hC⟩ => ?_⟩
  rw [scaled_one _ fun p => ?_] at hC
  swap
  · unfold Spec.default
    rw [hs]
    split_ifs with hp
    · rw [List.mem_singleton.1 hp]; rfl
    · rfl
  obtain ⟨δ, μ, h1, h2, θ, θ', h3, h4, h5⟩ := h C hC
  simp [Spec.Additive.nll, Spec.Additive.expected, Spec.Additive.stored, Ex.paperZ, sum_range_succ, h1, h2, h3, h4] at h5
  norm_num at h5
  have h6 := Real.log_lt_sub_one_of_pos (x := 1 / 2) (by norm_num) (by norm_num)
  rw [one_div, Real.log_inv] at h6
  linarith

/-- C113: The scaling by the default strength cannot be left out: with a default of two the loss is not the likelihood with the
variations as they were given. -/
theorem c113_default : ∃ (cfg : Writer.Cfg ℝ) (ops : List (Op ℝ)) (t : Tensor ℝ) (A : Spec.Additive),
    Writer.Spec.file cfg ops id t ∧ Writer.Spec.allOk cfg {} ops ∧ cfg.systType = .normal ∧ Writer.Spec.consistent ops ∧ Spec.Sums cfg.allowNeg ops A ∧
    Spec.filled ops A ∧ t.signals.length = 1 ∧
    ¬ ∃ C, ∀ x, (ofFile t .normal [2] true).loss x =
      .ok (some (A.nll (Spec.strength t true (List.ofFn x)) (Spec.nuisance t (List.ofFn x)) + C)) := by
  obtain ⟨t, F, hok, hs, h⟩ := Ex.differ (z := 1) (d := 2) (.inr rfl)
  refine ⟨_, _, t, _, F, hok, rfl, Ex.consistentZ 1, Ex.sumsZ 1, Ex.filledZ one_ne_zero, by rw [hs]; rfl, fun ⟨C, hC⟩ => ?_⟩
  obtain ⟨δ, μ, h1, h2, θ, θ', h3, h4, h5⟩ := h C hC
  simp [Spec.Additive.nll, Spec.Additive.expected, Spec.Additive.stored, Ex.paperZ, sum_range_succ, h1, h2, h3, h4] at h5
  norm_num at h5
  have h6 := Real.log_lt_sub_one_of_pos (x := 3 / 2) (by norm_num) (by norm_num)
  rw [Real.log_div three_ne_zero two_ne_zero] at h6
  linarith

end

end Verif.FileFit
