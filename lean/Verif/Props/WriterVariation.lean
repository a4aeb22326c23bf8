import Verif.Lemmas.Booked
import Verif.Props.WriterFile
import Verif.Props.WriterSparseTotal

/-!
C07 and C08 from the calls of the writer to the yields of the fitter: nominal templates, pairs of templates, mirrored templates and symmetrised
pairs are recovered from the written file at the expected parameter points, and a nuisance acts on nothing but what it was booked for.
-/

namespace Verif.Writer

open Verif.Logk M Finset

set_option linter.unusedSectionVars false

/-! ### Specification -/

/-- a file written in dense mode with the real numbers: names of channels are used once, histograms have the size of their channel, some of the
calls may be refused -/
structure Spec.file (cfg : Cfg ℝ) (ops : List (Op ℝ)) (iter : List String → List String) (t : Tensor ℝ) : Prop where
  num : cfg.num = Yields.num
  dense : cfg.sparse = false
  fresh : Spec.freshNames cfg {} ops
  fits : Spec.fitting cfg {} ops
  written : (write cfg iter (run cfg ops)).2 = .ok t

/-- bin `i` of a channel is row `g` of the file, the process column `p` -/
def Spec.cellAt (t : Tensor ℝ) (chan proc : String) (i g p : Nat) : Prop :=
  ∃ a e, (chan, a, e) ∈ readerFrom 0 t.channelInfo ∧ i < e - a ∧ g = a + i ∧ t.procs[p]? = some proc

/-- the rates at which predictions are claimed: all for log-normal variations, those of the default parameters for normal ones (`c07_normal_rate_violated`) -/
def Spec.ratesAt (st : SystType) (nparams : Nat) (rinit r : Yields.Rates) (g p : Nat) : Prop :=
  st = .logNormal ∨ r.at g p = if nparams = 0 then 1 else rinit.at g p

/-- nominal and varied content can be connected: not empty, and on the same side of zero for log-normal variations (`c07_zero_nominal_violated`, `c09_floor`) -/
def Spec.connected (st : SystType) (x u : ℝ) : Prop := if st = .logNormal then 0 < x * u else x ≠ 0

/-- nuisance `j` at `v`, nuisance `k` at `w`, the others at zero -/
def Spec.two (j k : Nat) (v w : ℝ) (c : Nat) : ℝ := if c = j then v else if c = k then w else 0

/-- the content as far on the other side of `x` as `u` is on this side: in ratio for log-normal variations, in difference for normal ones -/
noncomputable def Spec.mirrored (st : SystType) (x u : ℝ) : ℝ := if st = .logNormal then x * x / u else 2 * x - u

/-- predictions `y₊`, `y₋` at +1 and -1 of a pair replaced by its average: symmetric around nominal, with the ratio (difference) of the pair -/
def Spec.averaged (st : SystType) (ρ x u d yp ym : ℝ) : Prop :=
  if st = .logNormal then yp * ym = (ρ * x) * (ρ * x) ∧ yp * d = ym * u else yp + ym = 2 * (ρ * x) ∧ yp - ym = ρ * u - ρ * d

/-! ### The yield of a cell -/

/-- sum of the variations of a cell -/
theorem logsnorm_sum (s : Yields.Shape) (d : Yields.Dense) (θ : Nat → ℝ) (b p : Nat) :
    d.logsnorm s θ b p = ∑ j ∈ range s.nsyst, (d.logk b p 0 j * θ j +
      if s.symmetric then 0 else d.logk b p 1 j * (θ j * Interp.alpha (θ j))) := by
  unfold Yields.Dense.logsnorm
  by_cases hs : s.symmetric = true
  · have hn : s.ncol = s.nsyst := by simp [Yields.Shape.ncol, hs]
    rw [hn]
    refine sum_congr rfl fun j _ => ?_
    simp [Yields.Dense.mlogk, Yields.mtheta, hs]
  · have hn : s.ncol = s.nsyst + s.nsyst := by simp [Yields.Shape.ncol, hs]; ring
    rw [hn, sum_range_add, sum_add_distrib]
    congr 1
    · refine sum_congr rfl fun j hj => ?_
      rw [mem_range] at hj
      simp only [Yields.mtheta, Yields.Dense.mlogk, hs, Nat.div_eq_of_lt hj, Nat.mod_eq_of_lt hj]
      simp
    · refine sum_congr rfl fun j hj => ?_
      rw [mem_range] at hj
      have hpos : 0 < s.nsyst := by omega
      have h1 : (s.nsyst + j) / s.nsyst = 1 := by
        rw [Nat.add_div_left _ hpos, Nat.div_eq_of_lt hj]
      have h2 : (s.nsyst + j) % s.nsyst = j := by rw [Nat.add_mod_left, Nat.mod_eq_of_lt hj]
      simp only [Yields.mtheta, Yields.Dense.mlogk, hs, h1, h2]
      simp

/-- what is booked for a nuisance in bin `i` -/
noncomputable def varAt (s : State ℝ) (half : Bool) (chan proc m : String) (i : Nat) : ℝ :=
  (Spec.bookedVar s half chan proc m).elim 0 fun e => Spec.denseVar e i

/-- the prediction from nominal content `x` and the sum `L` of the variations -/
noncomputable def predicted (st : SystType) (ρ x L : ℝ) : ℝ := if st = .logNormal then ρ * (Real.exp L * x) else ρ * (x + L)

/-- the sum of the variations of a cell -/
noncomputable def varSum (t : Tensor ℝ) (s : State ℝ) (chan proc : String) (i : Nat) (θ : Nat → ℝ) : ℝ :=
  ∑ j ∈ range t.systs.length, (varAt s false chan proc (t.systs.getD j "") i * θ j +
    if t.symmetric then 0 else varAt s true chan proc (t.systs.getD j "") i * (θ j * Interp.alpha (θ j)))

theorem tiles_le : ∀ {l : List (Nat × Nat)} {a N : Nat}, Spec.tiles a l N → ∀ x ∈ l, x.2 ≤ N := by
  intro l
  induction l with
  | nil => intro a N _ x hx; cases hx
  | cons y l ih =>
    intro a N h x hx
    have hle : ∀ {l : List (Nat × Nat)} {a N : Nat}, Spec.tiles a l N → a ≤ N := by
      intro l
      induction l with
      | nil => intro a N h; exact Nat.le_of_eq h
      | cons z l ih => intro a N h; have := ih h.2.2; have := h.1; have := h.2.1; omega
    rcases List.mem_cons.1 hx with rfl | hx
    · exact hle h.2.2
    · exact ih h.2.2 x hx

section
variable {cfg : Cfg ℝ} {ops : List (Op ℝ)} {iter : List String → List String} {t : Tensor ℝ} (F : Spec.file cfg ops iter t)
include F

theorem Spec.file.sized : Sized (run cfg ops) := sized_run F.dense ops F.fresh F.fits

theorem Spec.file.csr : Spec.csrInRange (run cfg ops) := by
  intro chan nc proc size l h1 h2
  obtain ⟨_, _, l', h3, _⟩ := F.sized.norm chan proc (.csr size l) (by unfold Spec.at2; rw [h1]; exact h2)
  cases h3

theorem Spec.file.nominal {chan proc : String} {i g p : Nat} (hc : Spec.cellAt t chan proc i g p) {n : Norm ℝ}
    (hn : Spec.at2 (run cfg ops).norm chan proc = some n) : ∃ l, n = .dense l ∧ l[i]? = some (t.sumw g p) := by
  obtain ⟨a, e, hR, hi, rfl, hp⟩ := hc
  obtain ⟨_, htile, _, hsumw, _, _⟩ := c02_layout_partial cfg ops F.fresh iter t F.written F.csr
  obtain ⟨ch, hch, l, rfl, hl⟩ := F.sized.norm _ _ _ hn
  obtain ⟨ch', w, _, hw, _⟩ := F.sized.sumw2 _ _ _ hn
  have hT : Spec.template (run cfg ops) chan proc = some (.dense l, w) := by
    unfold Spec.at2 at hn hw
    unfold Spec.template
    cases h1 : (run cfg ops).norm.get? chan with
    | none => rw [h1] at hn; cases hn
    | some nc =>
      cases h2 : (run cfg ops).sumw2.get? chan with
      | none => rw [h2] at hw; cases hw
      | some wc =>
        rw [h1, Option.bind_some] at hn
        rw [h2, Option.bind_some] at hw
        simp only [hn, hw]
  have hs := hsumw chan a e hR p proc hp i hi
  rw [hT] at hs
  refine ⟨l, rfl, ?_⟩
  have hlen : e - a = l.length := by
    obtain ⟨lay, cells, W⟩ := write_ok F.written
    have hs' : LayInv (run cfg ops) := layInv_run cfg ops F.fresh
    have hR' : readerFrom 0 t.channelInfo = lay.map fun sl => (sl.name, sl.start, sl.start + sl.n) := by
      rw [W.channelInfo]
      exact reader_eq W.layout fun n c hc => hs'.get hc
    rw [hR'] at hR
    obtain ⟨sl, hsl, he⟩ := List.mem_map.1 hR
    cases he
    obtain ⟨_, _, _, hch2, hnb⟩ := layoutFrom_bounds W.layout
    have h3 := hnb sl hsl
    have h4 := hs'.get (Dict.mem_of_get? _ _ _ hch)
    rw [h4] at h3
    rw [hl]
    have h5 : sl.n = prod (dims ch.flow ch.axes) := (Option.some.inj h3).symm
    unfold chSize; omega
  rw [hs.1]
  have hil : i < l.length := by omega
  show l[i]? = some (Spec.elem l i 0)
  unfold Spec.elem
  by_cases h1 : l.length = 1
  · have : i = 0 := by omega
    subst this
    rw [if_pos h1, List.getD_eq_getElem?_getD, List.getElem?_eq_getElem hil]; rfl
  · rw [if_neg h1, List.getD_eq_getElem?_getD, List.getElem?_eq_getElem hil]; rfl

theorem Spec.file.cell {chan proc : String} {i g p : Nat} (hc : Spec.cellAt t chan proc i g p) (full : Bool) (nparams : Nat)
    (rinit r : Yields.Rates) (hr : Spec.ratesAt cfg.systType nparams rinit r g p) (θ : Nat → ℝ) (n : Nat → ℝ) (y : Nat → Nat → ℝ)
    (hy : t.yields cfg.systType full nparams rinit r θ = .ok (n, y)) :
    y g p = predicted cfg.systType (r.at g p) (t.sumw g p) (varSum t (run cfg ops) chan proc i θ) := by
  obtain ⟨a, e, hR, hi, rfl, hp⟩ := hc
  obtain ⟨_, htile, _, hsumw, _, hnorm⟩ := c02_layout_partial cfg ops F.fresh iter t F.written F.csr
  obtain ⟨norm, logk, hb, hlogk⟩ := c07_dense_written cfg F.dense ops F.fresh iter t F.written
  have hn := hnorm norm logk hb
  have hg : a + i < t.nbinsfull := by
    have := tiles_le htile (a, e) (List.mem_map.2 ⟨_, hR, rfl⟩)
    simp only at this; omega
  have hpl : p < t.procs.length := (List.getElem?_eq_some_iff.1 hp).1
  unfold Tensor.yields at hy
  rw [hb] at hy
  dsimp only at hy
  unfold Yields.Dense.compute at hy
  split at hy
  swap
  · cases hy
  have hy' := Except.ok.inj hy
  have hy2 : y = ((readDense t norm logk).scaled (t.shape cfg.systType) nparams rinit).yield (t.shape cfg.systType) r θ :=
    (congrArg Prod.snd hy').symm
  rw [hy2]
  have hL : (readDense t norm logk).logsnorm (t.shape cfg.systType) θ (a + i) p = varSum t (run cfg ops) chan proc i θ := by
    rw [logsnorm_sum]
    refine sum_congr rfl fun j hj => ?_
    have hj' : j < t.systs.length := mem_range.1 hj
    have hm : t.systs[j]? = some (t.systs.getD j "") := by
      rw [List.getD_eq_getElem?_getD, List.getElem?_eq_getElem hj']; rfl
    have h0 := hlogk chan a e hR p proc hp i hi j _ hm
    have hE : ∀ half : Bool, (readDense t norm logk).logk (a + i) p (if half then 1 else 0) j =
        varAt (run cfg ops) half chan proc (t.systs.getD j "") i := by
      intro half
      show (if a + i < t.nbinsfull ∧ p < t.procs.length then logk (a + i) p (if half then 1 else 0) j else 0) = _
      rw [if_pos ⟨hg, hpl⟩, h0 half]
      unfold varAt
      cases Spec.bookedVar (run cfg ops) half chan proc (t.systs.getD j "") <;> rfl
    have e0 := hE false
    have e1 := hE true
    simp only [Bool.false_eq_true, if_false, if_true] at e0 e1
    rw [e0, e1]
    rfl
  have hx : (readDense t norm logk).norm (a + i) p = t.sumw (a + i) p := by
    show (if a + i < t.nbinsfull ∧ p < t.procs.length then norm (a + i) p else 0) = _
    rw [if_pos ⟨hg, hpl⟩, hn]
  unfold predicted
  by_cases hln : cfg.systType = .logNormal
  · have hl : (t.shape cfg.systType).logNormal = true := by simp [Tensor.shape, hln]
    rw [if_pos hln]
    unfold Yields.Dense.yield Yields.Dense.scaled
    rw [if_pos hl, if_pos (Or.inl hl), hL, hx]
  · have hl : (t.shape cfg.systType).logNormal = false := by
      show (cfg.systType == SystType.logNormal) = false
      simpa using hln
    rw [if_neg hln]
    have hr' := hr.resolve_left hln
    unfold Yields.Dense.yield
    rw [if_neg (by rw [hl]; decide)]
    by_cases hnp : nparams = 0
    · rw [if_pos hnp] at hr'
      have : (readDense t norm logk).scaled (t.shape cfg.systType) nparams rinit = readDense t norm logk := by
        unfold Yields.Dense.scaled; rw [if_pos (Or.inr hnp)]
      rw [this, hL, hx, hr']; ring
    · rw [if_neg hnp] at hr'
      have hsc : (readDense t norm logk).scaled (t.shape cfg.systType) nparams rinit =
          { readDense t norm logk with logk := fun b p k c => (readDense t norm logk).logk b p k c * rinit.at b p } := by
        unfold Yields.Dense.scaled
        rw [if_neg (by rw [hl]; simp [hnp])]
      rw [hsc]
      have hL2 : Yields.Dense.logsnorm (t.shape cfg.systType)
          { readDense t norm logk with logk := fun b p k c => (readDense t norm logk).logk b p k c * rinit.at b p } θ (a + i) p =
          varSum t (run cfg ops) chan proc i θ * rinit.at (a + i) p := by
        rw [← hL]
        unfold Yields.Dense.logsnorm
        rw [sum_mul]
        refine sum_congr rfl fun c _ => ?_
        unfold Yields.Dense.mlogk
        split_ifs <;> ring
      rw [hL2]
      show (readDense t norm logk).norm (a + i) p * _ + _ = _
      rw [hx, hr']; ring

end


/-! ### The state at an accepted call -/

theorem freshNames_split {cfg : Cfg ℝ} {l m : List (Op ℝ)} : ∀ {s}, Spec.freshNames cfg s (l ++ m) →
    Spec.freshNames cfg s l ∧ Spec.freshNames cfg (runOps cfg s l) m := by
  induction l with
  | nil => exact fun h => ⟨trivial, h⟩
  | cons op l ih => exact fun h => ⟨⟨h.1, (ih h.2).1⟩, (ih h.2).2⟩

theorem fitting_split {cfg : Cfg ℝ} {l m : List (Op ℝ)} : ∀ {s}, Spec.fitting cfg s (l ++ m) →
    Spec.fitting cfg s l ∧ Spec.fitting cfg (runOps cfg s l) m := by
  induction l with
  | nil => exact fun h => ⟨trivial, h⟩
  | cons op l ih => exact fun h => ⟨⟨h.1, (ih h.2).1⟩, (ih h.2).2⟩

theorem norm_run {cfg : Cfg ℝ} (ops : List (Op ℝ)) : ∀ (s : State ℝ) {chan proc : String} {x : Norm ℝ × List ℝ},
    Spec.template s chan proc = some x → Spec.neverReadded cfg chan s ops → Spec.template (runOps cfg s ops) chan proc = some x := by
  induction ops with
  | nil => exact fun s _ _ _ h _ => h
  | cons op ops ih => exact fun s _ _ _ h hn => ih _ (template_step cfg op s _ _ _ h hn.1) hn.2

theorem at2_of_template {s : State ℝ} {chan proc : String} {x : Norm ℝ × List ℝ} (h : Spec.template s chan proc = some x) :
    Spec.at2 s.norm chan proc = some x.1 := by
  obtain ⟨nc, wc, h1, _, h3, _⟩ := template_eq_some.1 h
  unfold Spec.at2; rw [h1]; exact h3

theorem template_of_at2 {s : State ℝ} (hs : Sized s) {chan proc : String} {n : Norm ℝ} (h : Spec.at2 s.norm chan proc = some n) :
    ∃ w, Spec.template s chan proc = some (n, w) := by
  obtain ⟨_, w, _, hw, _⟩ := hs.sumw2 _ _ _ h
  unfold Spec.at2 at h hw
  cases h1 : s.norm.get? chan with
  | none => rw [h1] at h; cases h
  | some nc =>
    cases h2 : s.sumw2.get? chan with
    | none => rw [h2] at hw; cases hw
    | some wc =>
      rw [h1, Option.bind_some] at h
      rw [h2, Option.bind_some] at hw
      exact ⟨w, template_eq_some.2 ⟨nc, wc, h1, h2, h, hw⟩⟩

/-- the bins of a stored variation, in the file -/
theorem varAt_of {s : State ℝ} {chan proc m : String} {A : List ℝ} {v : ℝ} {i : Nat} (half : Bool) (h1 : Spec.at3 s.logkavg chan proc m ≠ none)
    (h2 : Spec.at3 (if half then s.logkhalf else s.logkavg) chan proc m = some (.dense A)) (hv : A[i]? = some v) :
    varAt s half chan proc m i = v := by
  unfold varAt Spec.bookedVar
  cases h : Spec.at3 s.logkavg chan proc m with
  | none => exact absurd h h1
  | some e =>
    dsimp only
    have h3 : (if half = true then Spec.at3 s.logkhalf chan proc m else some e) = some (.dense A) := by
      cases half with
      | true => exact h2
      | false => rw [← h]; exact h2
    rw [h3]
    show Spec.elem A i 0 = v
    unfold Spec.elem
    have hi := (List.getElem?_eq_some_iff.1 hv).1
    by_cases hl : A.length = 1
    · have : i = 0 := by omega
      subst this
      rw [if_pos hl, List.getD_eq_getElem?_getD, hv]; rfl
    · rw [if_neg hl, List.getD_eq_getElem?_getD, hv]; rfl

theorem varAt_none {s : State ℝ} {chan proc m : String} (h : Spec.at3 s.logkavg chan proc m = none) (half : Bool) (i : Nat) :
    varAt s half chan proc m i = 0 := by
  unfold varAt Spec.bookedVar
  rw [h]; rfl

theorem varAt_half_none {s : State ℝ} {chan proc m : String} (h : Spec.at3 s.logkhalf chan proc m = none) (i : Nat) :
    varAt s true chan proc m i = 0 := by
  unfold varAt Spec.bookedVar
  cases Spec.at3 s.logkavg chan proc m with
  | none => rfl
  | some e => simp only [if_true, h]; rfl

/-- the content of one bin of what is stored by a call, read back from the file -/
theorem read_back {cfg : Cfg ℝ} {pre post : List (Op ℝ)} {op : Op ℝ} {iter : List String → List String} {t : Tensor ℝ}
    (F : Spec.file cfg (pre ++ op :: post) iter t) {chan proc : String} {i g p : Nat} (hcell : Spec.cellAt t chan proc i g p)
    {c : Chan} (hc : (run cfg pre).channels.get? chan = some c) {n : Norm ℝ} (hn : Spec.at2 (run cfg pre).norm chan proc = some n)
    (hsyst : (step cfg op (run cfg pre)).1.norm = (run cfg pre).norm) :
    ∃ l, n = .dense l ∧ l.length = chSize c ∧ l[i]? = some (t.sumw g p) ∧ t.channelInfo.get? chan = some c ∧
      ∀ m, (∀ o ∈ post, ¬ Spec.touches chan proc m o) → ∀ a b, Spec.at3 (step cfg op (run cfg pre)).1.logkavg chan proc m = a →
        Spec.at3 (step cfg op (run cfg pre)).1.logkhalf chan proc m = b →
        Spec.at3 (run cfg (pre ++ op :: post)).logkavg chan proc m = a ∧ Spec.at3 (run cfg (pre ++ op :: post)).logkhalf chan proc m = b := by
  obtain ⟨f1, f2⟩ := freshNames_split F.fresh
  obtain ⟨g1, g2⟩ := fitting_split F.fits
  have hl0 : LayInv (run cfg pre) := layInv_run cfg pre f1
  have hs0 : Sized (run cfg pre) := sized_run F.dense pre f1 g1
  have hrun : run cfg (pre ++ op :: post) = runOps cfg (step cfg op (run cfg pre)).1 post := by
    unfold run; rw [runOps_append]; rfl
  have hl1 := layInv_step cfg op _ hl0 f2.1
  have hs1 := sized_step F.dense op _ hs0 hl0 f2.1 g2.1
  have hc1 := channel_step (cfg := cfg) op _ hl0 f2.1 hc
  obtain ⟨hc2, hre⟩ := channel_run post _ hl1 f2.2 hc1
  have hn1 : Spec.at2 (step cfg op (run cfg pre)).1.norm chan proc = some n := by rw [hsyst]; exact hn
  obtain ⟨w, hT⟩ := template_of_at2 hs1 hn1
  have hn2 := at2_of_template (norm_run post _ hT hre)
  rw [← hrun] at hn2
  obtain ⟨l, rfl, hx⟩ := F.nominal hcell hn2
  obtain ⟨ch, hch, l', e1, e2⟩ := hs0.norm _ _ _ hn
  cases e1
  rw [hc] at hch
  cases hch
  refine ⟨l, rfl, e2, hx, ?_, fun m hm a b ha hb => ?_⟩
  · obtain ⟨lay, cells, W⟩ := write_ok F.written
    rw [W.channelInfo, hrun]; exact hc2
  · have := entry_run (cfg := cfg) post _ (⟨ha, hb, .inr ⟨_, hn1⟩⟩ : Entry chan proc m a b _) hm hre
    rw [hrun]
    exact ⟨this.1, this.2⟩

/-- nothing is stored for a nuisance no call asked for -/
theorem untouched_none {cfg : Cfg ℝ} {ops : List (Op ℝ)} {chan proc m : String} (h : ∀ o ∈ ops, ¬ Spec.touches chan proc m o) :
    Spec.at3 (run cfg ops).logkavg chan proc m = none ∧ Spec.at3 (run cfg ops).logkhalf chan proc m = none := by
  have := entry_none (cfg := cfg) ops {} (⟨rfl, rfl, .inl ⟨rfl, rfl⟩⟩ : Entry chan proc m none none _) h
  exact ⟨this.1, this.2⟩

/-! ### Sums with one or two nuisances away from zero -/

theorem systs_getD {t : Tensor ℝ} {j : Nat} {m : String} (hj : t.systs[j]? = some m) : j < t.systs.length ∧ t.systs.getD j "" = m := by
  refine ⟨(List.getElem?_eq_some_iff.1 hj).1, ?_⟩
  rw [List.getD_eq_getElem?_getD, hj]; rfl

theorem varSum_single {t : Tensor ℝ} (s : State ℝ) (chan proc : String) (i : Nat) {j : Nat} {m : String} (hj : t.systs[j]? = some m) (σ : ℝ) :
    varSum t s chan proc i (Yields.Spec.single j σ) = varAt s false chan proc m i * σ +
      if t.symmetric then 0 else varAt s true chan proc m i * (σ * Interp.alpha σ) := by
  obtain ⟨h1, h2⟩ := systs_getD hj
  unfold varSum
  rw [sum_eq_single j]
  · rw [h2]; simp [Yields.Spec.single]
  · intro c _ hc
    simp [Yields.Spec.single, hc]
  · intro h; exact absurd (mem_range.2 h1) h

theorem varSum_two {t : Tensor ℝ} {s : State ℝ} {chan proc : String} {i : Nat} {j k : Nat} {m q : String} (hj : t.systs[j]? = some m)
    (hk : t.systs[k]? = some q) (hjk : j ≠ k) (h1 : varAt s true chan proc m i = 0) (h2 : varAt s true chan proc q i = 0) (σ w : ℝ) :
    varSum t s chan proc i (Spec.two j k σ w) = varAt s false chan proc m i * σ + varAt s false chan proc q i * w := by
  obtain ⟨a1, a2⟩ := systs_getD hj
  obtain ⟨b1, b2⟩ := systs_getD hk
  have hkj : ¬ k = j := fun e => hjk e.symm
  unfold varSum
  have : ∀ c ∈ range t.systs.length, (varAt s false chan proc (t.systs.getD c "") i * Spec.two j k σ w c +
      if t.symmetric then 0 else varAt s true chan proc (t.systs.getD c "") i * (Spec.two j k σ w c * Interp.alpha (Spec.two j k σ w c))) =
      (if c = j then varAt s false chan proc m i * σ else 0) + if c = k then varAt s false chan proc q i * w else 0 := by
    intro c _
    unfold Spec.two
    by_cases hc : c = j
    · subst hc
      rw [a2, h1, if_pos rfl, if_pos rfl, if_neg hjk]; simp
    · by_cases hc' : c = k
      · subst hc'
        rw [b2, h2, if_neg hc, if_pos rfl, if_neg hc, if_pos rfl]; simp
      · rw [if_neg hc, if_neg hc', if_neg hc, if_neg hc']; simp
  rw [sum_congr rfl this, sum_add_distrib, sum_ite_eq', sum_ite_eq', if_pos (mem_range.2 a1), if_pos (mem_range.2 b1)]

/-! ### Per bin -/

/-- the variation of content `x` to content `u` -/
noncomputable def toward (st : SystType) (x u : ℝ) : ℝ := if st = .logNormal then Real.log (u / x) else u - x

theorem logkVal_toward {st : SystType} (hst : st ≠ .other) {x u : ℝ} (h : Spec.connected st x u) :
    x ≠ 0 ∧ logkVal Yields.num st 1 u x = toward st x u := by
  unfold Spec.connected at h
  cases st with
  | other => exact absurd rfl hst
  | logNormal =>
    rw [if_pos rfl] at h
    refine ⟨fun h0 => by simp [h0] at h, ?_⟩
    simp only [logkVal, toward, if_true, h, one_mul]; rfl
  | normal =>
    rw [if_neg (by decide)] at h
    refine ⟨h, ?_⟩
    simp [logkVal, toward]

theorem predicted_toward {st : SystType} {ρ x u : ℝ} (h : Spec.connected st x u) : predicted st ρ x (toward st x u) = ρ * u := by
  unfold Spec.connected at h
  unfold predicted toward
  by_cases hl : st = .logNormal
  · simp only [hl, if_true] at h ⊢
    have hx : x ≠ 0 := fun h0 => by simp [h0] at h
    have hp : 0 < u / x := by
      rcases mul_pos_iff.1 h with ⟨h1, h2⟩ | ⟨h1, h2⟩
      · exact div_pos h2 h1
      · exact div_pos_of_neg_of_neg h2 h1
    rw [Real.exp_log hp]
    field_simp
  · simp only [hl, if_false]
    ring

/-- state at an accepted call of `add_systematic` -/
theorem syst_accepted {cfg : Cfg ℝ} {s : State ℝ} {x : SystIn ℝ} {m proc chan : String} {k : ℝ} {mirror : Bool} {symm : Symm}
    {toCov asDiff : Bool} {o : SystOpts} (hok : (step cfg (.syst x m proc chan k mirror symm toCov asDiff o) s).2 = .ok ()) :
    ∃ c n, s.channels.get? chan = some c ∧ Spec.at2 s.norm chan proc = some n ∧
      addSystematic cfg x m proc chan k mirror symm toCov asDiff o s = ((step cfg (.syst x m proc chan k mirror symm toCov asDiff o) s).1, .ok ()) := by
  have h : addSystematic cfg x m proc chan k mirror symm toCov asDiff o s = ((step cfg (.syst x m proc chan k mirror symm toCov asDiff o) s).1, .ok ()) :=
    Prod.ext rfl hok
  have h' := h
  unfold addSystematic at h'
  rw [read_bind] at h'
  obtain ⟨nc, hnc, h'⟩ := lift_bind_ok h'
  obtain ⟨n, hn, h'⟩ := lift_bind_ok h'
  obtain ⟨c, hc, _⟩ := lift_bind_ok h'
  refine ⟨c, n, ?_, get_at2 hnc hn, h⟩
  unfold Dict.get at hc
  split at hc
  · rename_i v hv; cases hc; exact hv
  · cases hc

/-- a file with a half difference is not marked symmetric -/
theorem not_symmetric {cfg : Cfg ℝ} {ops : List (Op ℝ)} {iter : List String → List String} {t : Tensor ℝ}
    (hw : (write cfg iter (run cfg ops)).2 = .ok t) {chan proc m : String} {e : LogkE ℝ}
    (h : Spec.at3 (run cfg ops).logkhalf chan proc m = some e) : t.symmetric = false := by
  obtain ⟨lay, cells, W⟩ := write_ok hw
  rw [W.symmetric]
  cases hs : (run cfg ops).symmetric with
  | false => rfl
  | true => rw [c07_symmetric_flag cfg ops hs] at h; cases h

theorem effType_false (cfg : Cfg ℝ) : effType cfg false = cfg.systType := rfl

theorem alpha_pm {σ : ℝ} (hσ : σ = 1 ∨ σ = -1) : σ * Interp.alpha σ = 1 := by
  rcases hσ with rfl | rfl
  · rw [Yields.alpha_one]; norm_num
  · rw [Yields.alpha_neg_one]; norm_num

/-! ### C07 -/

/-- C07, nominal: after an accepted `add_process` the prediction of the written file with all nuisances at zero is, in every bin of the channel, the
template times the rate; negative contents are set to zero unless they are allowed. -/
theorem c07_calls_nominal (cfg : Cfg ℝ) (pre post : List (Op ℝ)) (h : HIn ℝ) (proc chan : String) (sig : Bool) (vars : Option (HIn ℝ))
    (iter : List String → List String) (t : Tensor ℝ) (F : Spec.file cfg (pre ++ .process h proc chan sig vars :: post) iter t)
    (hok : (step cfg (.process h proc chan sig vars) (run cfg pre)).2 = .ok ())
    (hcan : ∀ flow, ((h.flatCsr flow).2.map (·.1)).Nodup)
    (i g p : Nat) (hcell : Spec.cellAt t chan proc i g p) :
    ∃ c x, t.channelInfo.get? chan = some c ∧ (h.flatVals c.flow)[i]? = some x ∧ Spec.storedAs cfg.allowNeg x (t.sumw g p) ∧
      ∀ full nparams rinit r, Spec.ratesAt cfg.systType nparams rinit r g p → ∀ n y,
        t.yields cfg.systType full nparams rinit r (fun _ => 0) = .ok (n, y) → y g p = r.at g p * t.sumw g p := by
  obtain ⟨f1, f2⟩ := freshNames_split F.fresh
  obtain ⟨g1, g2⟩ := fitting_split F.fits
  have hl0 : LayInv (run cfg pre) := layInv_run cfg pre f1
  have hrun : run cfg (pre ++ .process h proc chan sig vars :: post) = runOps cfg (step cfg (.process h proc chan sig vars) (run cfg pre)).1 post := by
    unfold run; rw [runOps_append]; rfl
  have hl1 := layInv_step cfg (.process h proc chan sig vars) _ hl0 f2.1
  have hchan : ∃ c, (run cfg pre).channels.get? chan = some c := by
    obtain ⟨c, _, _, hc, _⟩ := c01_process_partial cfg _ h proc chan sig vars hok [] trivial
    exact ⟨c, hc⟩
  obtain ⟨c, hc⟩ := hchan
  have hc1 := channel_step (cfg := cfg) (.process h proc chan sig vars) _ hl0 f2.1 hc
  obtain ⟨hc2, hre⟩ := channel_run post _ hl1 f2.2 hc1
  obtain ⟨c', n, w, hc', hn, _, hT, _⟩ := c01_process_partial cfg _ h proc chan sig vars hok post hre
  rw [hc] at hc'
  cases hc'
  have hat := at2_of_template hT
  rw [← hrun] at hat
  obtain ⟨l, hl, hx⟩ := F.nominal hcell hat
  have hl' : n = .dense l := hl
  subst hl'
  have hlen : (h.flatVals c.flow).length = l.length := by
    obtain ⟨ch, hch, l', e1, e2⟩ := F.sized.norm _ _ _ hat
    have e1' : Norm.dense l = .dense l' := e1
    cases e1'
    rw [hrun] at hch
    rw [hc2] at hch
    cases hch
    rw [(g2.1 c hc).1.1, e2]; rfl
  obtain ⟨v, hv⟩ := get_of_length hlen (List.getElem?_eq_some_iff.1 hx).1
  have hst := procNorm_stored cfg h c.flow (.dense l) (hcan _) hn i v hv
  refine ⟨c, v, ?_, hv, ?_, fun full nparams rinit r hr n y hy => ?_⟩
  · obtain ⟨lay, cells, W⟩ := write_ok F.written
    rw [W.channelInfo, hrun]; exact hc2
  · have hat' : Norm.at (.dense l) i = t.sumw g p := by
      show l.getD i 0 = _
      rw [List.getD_eq_getElem?_getD, hx]; rfl
    rw [hat'] at hst; exact hst
  · rw [F.cell hcell full nparams rinit r hr _ n y hy]
    have h0 : varSum t (run cfg (pre ++ .process h proc chan sig vars :: post)) chan proc i (fun _ => 0) = 0 := by
      unfold varSum
      exact sum_eq_zero fun j _ => by simp
    rw [h0]
    unfold predicted
    split_ifs <;> simp

/-- C07, pair of templates: after an accepted `add_systematic` of an up and a down histogram without symmetrisation (no later call for the same
channel, process and nuisance), the prediction of the written file with this nuisance at +1 (-1) and the others at zero is, in every bin of the
channel, the up (down) template times the rate; at the default rates for normal variations, and in bins where nominal and varied content can be connected. -/
theorem c07_calls_pair (cfg : Cfg ℝ) (pre post : List (Op ℝ)) (hu hw : HIn ℝ) (m proc chan : String) (mirror asDiff : Bool) (o : SystOpts)
    (iter : List String → List String) (t : Tensor ℝ)
    (F : Spec.file cfg (pre ++ .syst (.pair hu hw) m proc chan 1 mirror .none false asDiff o :: post) iter t)
    (hok : (step cfg (.syst (.pair hu hw) m proc chan 1 mirror .none false asDiff o) (run cfg pre)).2 = .ok ())
    (hpost : ∀ op ∈ post, ¬ Spec.touches chan proc m op) (i g p : Nat) (hcell : Spec.cellAt t chan proc i g p)
    (j : Nat) (hj : t.systs[j]? = some m) :
    ∃ c u d, t.channelInfo.get? chan = some c ∧ Spec.varied hu c.flow asDiff i (t.sumw g p) u ∧
      Spec.varied hw c.flow asDiff i (t.sumw g p) d ∧
      ∀ full nparams rinit r, Spec.ratesAt cfg.systType nparams rinit r g p → ∀ n y,
        (Spec.connected cfg.systType (t.sumw g p) u → t.yields cfg.systType full nparams rinit r (Yields.Spec.single j 1) = .ok (n, y) →
          y g p = r.at g p * u) ∧
        (Spec.connected cfg.systType (t.sumw g p) d → t.yields cfg.systType full nparams rinit r (Yields.Spec.single j (-1)) = .ok (n, y) →
          y g p = r.at g p * d) := by
  obtain ⟨c, n, hc, hn, hadd⟩ := syst_accepted hok
  have hk := (keeps_addSystematic cfg (.pair hu hw) m proc chan 1 mirror .none false asDiff o).run (run cfg pre)
  rw [hadd] at hk
  have hnorm : (step cfg (.syst (.pair hu hw) m proc chan 1 mirror .none false asDiff o) (run cfg pre)).1.norm = (run cfg pre).norm := congrArg Core.norm hk
  obtain ⟨l, rfl, hlen, hx, hci, hstay⟩ := read_back F hcell hc hn hnorm
  obtain ⟨_, g2⟩ := fitting_split F.fits
  obtain ⟨z1, z2⟩ := g2.1 c hc
  obtain ⟨_, ht, ⟨A, hA, hA'⟩, hB, _, _⟩ := pair_stored F.dense hc hn (z1.1.trans hlen.symm) (z2.1.trans hlen.symm) hadd
  obtain ⟨B, hB, hB'⟩ := hB rfl
  have hA2 : Spec.at3 (step cfg (.syst (.pair hu hw) m proc chan 1 mirror .none false asDiff o) (run cfg pre)).1.logkavg chan proc m = some (.dense A) := hA
  obtain ⟨e1, e2⟩ := hstay m hpost _ _ hA2 hB
  have hsym := not_symmetric F.written e2
  obtain ⟨a, ha, u, d, hvu, hvd, rfl⟩ := hA' i _ hx
  obtain ⟨b, hb, u', d', ⟨v1, q1, r1⟩, ⟨v2, q2, r2⟩, rfl⟩ := hB' i _ hx
  obtain ⟨w1, s1, t1⟩ := hvu
  obtain ⟨w2, s2, t2⟩ := hvd
  rw [q1] at s1
  rw [q2] at s2
  cases s1
  cases s2
  obtain rfl : u' = u := r1.trans t1.symm
  obtain rfl : d' = d := r2.trans t2.symm
  refine ⟨c, u', d', hci, ⟨v1, q1, r1⟩, ⟨v2, q2, r2⟩, fun full nparams rinit r hr n y => ?_⟩
  have E0 := varAt_of false (by rw [e1]; exact Option.some_ne_none _) e1 ha
  have E1 := varAt_of true (by rw [e1]; exact Option.some_ne_none _) e2 hb
  rw [F.num, effType_false] at E0 E1
  rw [effType_false] at ht
  have hS : ∀ σ : ℝ, σ = 1 ∨ σ = -1 → t.sumw g p ≠ 0 →
      varSum t (run cfg (pre ++ .syst (.pair hu hw) m proc chan 1 mirror .none false asDiff o :: post)) chan proc i (Yields.Spec.single j σ) =
        if σ = 1 then logkVal Yields.num cfg.systType 1 u' (t.sumw g p) else logkVal Yields.num cfg.systType 1 d' (t.sumw g p) := by
    intro σ hσ hx0
    rw [varSum_single _ _ _ _ hj, hsym, E0, E1, alpha_pm hσ]
    simp only [maskNorm, hx0, if_false, computeAsym, Option.getD_some, Bool.false_eq_true]
    rcases hσ with rfl | rfl
    · rw [if_pos rfl]; ring
    · rw [if_neg (by norm_num)]; ring
  constructor
  · intro hcon hy
    obtain ⟨hx0, hlk⟩ := logkVal_toward ht hcon
    rw [F.cell hcell full nparams rinit r hr _ n y hy, hS 1 (.inl rfl) hx0, if_pos rfl, hlk, predicted_toward hcon]
  · intro hcon hy
    obtain ⟨hx0, hlk⟩ := logkVal_toward ht hcon
    rw [F.cell hcell full nparams rinit r hr _ n y hy, hS (-1) (.inr rfl) hx0, if_neg (by norm_num), hlk, predicted_toward hcon]

theorem mirrored_toward {st : SystType} {x u : ℝ} (h : Spec.connected st x u) :
    Spec.connected st x (Spec.mirrored st x u) ∧ toward st x (Spec.mirrored st x u) = -toward st x u := by
  unfold Spec.connected at h
  unfold Spec.connected Spec.mirrored toward
  by_cases hl : st = .logNormal
  · simp only [hl, if_true] at h ⊢
    have hx : x ≠ 0 := fun h0 => by simp [h0] at h
    have hu : u ≠ 0 := fun h0 => by simp [h0] at h
    constructor
    · have e : x * (x * x / u) = (x * x) * (x * x) / (x * u) := by field_simp
      rw [e]
      have : 0 < x * x := mul_self_pos.2 hx
      positivity
    · rw [← Real.log_inv]
      congr 1
      field_simp
  · simp only [hl, if_false] at h ⊢
    exact ⟨h, by ring⟩

/-- the prediction of a cell with one nuisance of a symmetric variation away from zero -/
theorem sym_cell {cfg : Cfg ℝ} {ops : List (Op ℝ)} {iter : List String → List String} {t : Tensor ℝ} (F : Spec.file cfg ops iter t)
    {chan proc m : String} {i g p j : Nat} (hcell : Spec.cellAt t chan proc i g p) (hj : t.systs[j]? = some m) {A : List ℝ} {v : ℝ}
    (h1 : Spec.at3 (run cfg ops).logkavg chan proc m = some (.dense A)) (h2 : Spec.at3 (run cfg ops).logkhalf chan proc m = none)
    (hv : A[i]? = some v) {full : Bool} {nparams : Nat} {rinit r : Yields.Rates} (hr : Spec.ratesAt cfg.systType nparams rinit r g p) {σ : ℝ}
    {n : Nat → ℝ} {y : Nat → Nat → ℝ} (hy : t.yields cfg.systType full nparams rinit r (Yields.Spec.single j σ) = .ok (n, y)) :
    y g p = predicted cfg.systType (r.at g p) (t.sumw g p) (v * σ) := by
  rw [F.cell hcell full nparams rinit r hr _ n y hy, varSum_single _ _ _ _ hj, varAt_half_none h2,
    varAt_of false (by rw [h1]; exact Option.some_ne_none _) h1 hv]
  simp

/-- C07, mirrored template: after an accepted `add_systematic` of a single histogram (the only call for this channel, process and nuisance), the
prediction at +1 is the varied template times the rate, at -1 the mirrored one. -/
theorem c07_calls_mirrored (cfg : Cfg ℝ) (pre post : List (Op ℝ)) (hu : HIn ℝ) (m proc chan : String) (mirror : Bool) (symm : Symm) (asDiff : Bool)
    (o : SystOpts) (iter : List String → List String) (t : Tensor ℝ)
    (F : Spec.file cfg (pre ++ .syst (.single hu) m proc chan 1 mirror symm false asDiff o :: post) iter t)
    (hok : (step cfg (.syst (.single hu) m proc chan 1 mirror symm false asDiff o) (run cfg pre)).2 = .ok ())
    (hpre : ∀ op ∈ pre, ¬ Spec.touches chan proc m op)
    (hpost : ∀ op ∈ post, ¬ Spec.touches chan proc m op) (i g p : Nat) (hcell : Spec.cellAt t chan proc i g p)
    (j : Nat) (hj : t.systs[j]? = some m) :
    ∃ c u, t.channelInfo.get? chan = some c ∧ Spec.varied hu c.flow asDiff i (t.sumw g p) u ∧
      (Spec.connected cfg.systType (t.sumw g p) u →
      ∀ full nparams rinit r, Spec.ratesAt cfg.systType nparams rinit r g p → ∀ n y,
        (t.yields cfg.systType full nparams rinit r (Yields.Spec.single j 1) = .ok (n, y) → y g p = r.at g p * u) ∧
        (t.yields cfg.systType full nparams rinit r (Yields.Spec.single j (-1)) = .ok (n, y) →
          y g p = r.at g p * Spec.mirrored cfg.systType (t.sumw g p) u)) := by
  obtain ⟨c, n, hc, hn, hadd⟩ := syst_accepted hok
  have hk := (keeps_addSystematic cfg (.single hu) m proc chan 1 mirror symm false asDiff o).run (run cfg pre)
  rw [hadd] at hk
  have hnorm : (step cfg (.syst (.single hu) m proc chan 1 mirror symm false asDiff o) (run cfg pre)).1.norm = (run cfg pre).norm := congrArg Core.norm hk
  obtain ⟨l, rfl, hlen, hx, hci, hstay⟩ := read_back F hcell hc hn hnorm
  obtain ⟨_, g2⟩ := fitting_split F.fits
  obtain ⟨_, hh, ht, A, hA, hA'⟩ := single_stored F.dense hc hn ((g2.1 c hc).1.trans hlen.symm) hadd
  obtain ⟨e1, e2⟩ := hstay m hpost _ none hA (by rw [hh]; exact (untouched_none hpre).2)
  obtain ⟨a, ha, u, hvu, rfl⟩ := hA' i _ hx
  refine ⟨c, u, hci, hvu, fun hcon full nparams rinit r hr n y => ?_⟩
  rw [effType_false] at ht ha
  obtain ⟨hx0, hlk⟩ := logkVal_toward ht hcon
  obtain ⟨hm1, hm2⟩ := mirrored_toward hcon
  rw [F.num, hlk, maskNorm, if_neg hx0] at ha
  constructor
  · intro hy
    rw [sym_cell F hcell hj e1 e2 ha hr hy, mul_one, predicted_toward hcon]
  · intro hy
    rw [sym_cell F hcell hj e1 e2 ha hr hy, mul_neg_one, ← hm2, predicted_toward hm1]

theorem predicted_averaged {st : SystType} {ρ x u d : ℝ} (h1 : Spec.connected st x u) (h2 : Spec.connected st x d) :
    Spec.averaged st ρ x u d (predicted st ρ x ((1 / 2) * (toward st x u + -toward st x d) * 1))
      (predicted st ρ x ((1 / 2) * (toward st x u + -toward st x d) * (-1))) := by
  unfold Spec.connected at h1 h2
  unfold Spec.averaged predicted toward
  by_cases hl : st = .logNormal
  · simp only [hl, if_true] at h1 h2 ⊢
    have hx : x ≠ 0 := fun h0 => by simp [h0] at h1
    have hp : ∀ {u : ℝ}, 0 < x * u → 0 < u / x := by
      intro u h
      rcases mul_pos_iff.1 h with ⟨h1, h2⟩ | ⟨h1, h2⟩
      · exact div_pos h2 h1
      · exact div_pos_of_neg_of_neg h2 h1
    have hd : d = Real.exp (Real.log (d / x)) * x := by rw [Real.exp_log (hp h2)]; field_simp
    have hu : u = Real.exp (Real.log (u / x)) * x := by rw [Real.exp_log (hp h1)]; field_simp
    generalize hU : Real.log (u / x) = U at *
    generalize hD : Real.log (d / x) = D at *
    constructor
    · have e : ∀ a b : ℝ, ρ * (a * x) * (ρ * (b * x)) = (a * b) * (ρ * x * (ρ * x)) := fun a b => by ring
      rw [e, ← Real.exp_add, show 1 / 2 * (U + -D) * 1 + 1 / 2 * (U + -D) * -1 = 0 by ring, Real.exp_zero, one_mul]
    · rw [hd, hu]
      have e : ∀ a b : ℝ, ρ * (a * x) * (b * x) = (a * b) * (ρ * x * x) := fun a b => by ring
      rw [e, e, ← Real.exp_add, ← Real.exp_add]
      congr 2; ring
  · simp only [hl, if_false]
    constructor <;> ring

/-- C08, averaged and conservative pair, from the calls: averaging gives predictions symmetric around nominal with the ratio (difference) of the pair;
the conservative choice reproduces one of the two templates and mirrors it on the other side. -/
theorem c08_calls_symmetrised (cfg : Cfg ℝ) (pre post : List (Op ℝ)) (hu hw : HIn ℝ) (m proc chan : String) (mirror : Bool) (symm : Symm)
    (hsymm : symm = .average ∨ symm = .conservative) (asDiff : Bool) (o : SystOpts)
    (iter : List String → List String) (t : Tensor ℝ)
    (F : Spec.file cfg (pre ++ .syst (.pair hu hw) m proc chan 1 mirror symm false asDiff o :: post) iter t)
    (hok : (step cfg (.syst (.pair hu hw) m proc chan 1 mirror symm false asDiff o) (run cfg pre)).2 = .ok ())
    (hpre : ∀ op ∈ pre, ¬ Spec.touches chan proc m op)
    (hpost : ∀ op ∈ post, ¬ Spec.touches chan proc m op) (i g p : Nat) (hcell : Spec.cellAt t chan proc i g p)
    (j : Nat) (hj : t.systs[j]? = some m) :
    ∃ c u d, t.channelInfo.get? chan = some c ∧ Spec.varied hu c.flow asDiff i (t.sumw g p) u ∧
      Spec.varied hw c.flow asDiff i (t.sumw g p) d ∧
      (Spec.connected cfg.systType (t.sumw g p) u → Spec.connected cfg.systType (t.sumw g p) d →
      ∀ full nparams rinit r, Spec.ratesAt cfg.systType nparams rinit r g p → ∀ n y n' y',
        t.yields cfg.systType full nparams rinit r (Yields.Spec.single j 1) = .ok (n, y) →
        t.yields cfg.systType full nparams rinit r (Yields.Spec.single j (-1)) = .ok (n', y') →
        (symm = .average → Spec.averaged cfg.systType (r.at g p) (t.sumw g p) u d (y g p) (y' g p)) ∧
        (symm = .conservative →
          (y g p = r.at g p * u ∧ y' g p = r.at g p * Spec.mirrored cfg.systType (t.sumw g p) u) ∨
          (y' g p = r.at g p * d ∧ y g p = r.at g p * Spec.mirrored cfg.systType (t.sumw g p) d))) := by
  obtain ⟨c, n, hc, hn, hadd⟩ := syst_accepted hok
  have hk := (keeps_addSystematic cfg (.pair hu hw) m proc chan 1 mirror symm false asDiff o).run (run cfg pre)
  rw [hadd] at hk
  have hnorm : (step cfg (.syst (.pair hu hw) m proc chan 1 mirror symm false asDiff o) (run cfg pre)).1.norm = (run cfg pre).norm := congrArg Core.norm hk
  obtain ⟨l, rfl, hlen, hx, hci, hstay⟩ := read_back F hcell hc hn hnorm
  obtain ⟨_, g2⟩ := fitting_split F.fits
  obtain ⟨z1, z2⟩ := g2.1 c hc
  obtain ⟨_, ht, ⟨A, hA, hA'⟩, _, _, hh⟩ := pair_stored F.dense hc hn (z1.1.trans hlen.symm) (z2.1.trans hlen.symm) hadd
  have hname : avgName symm m = m := by rcases hsymm with rfl | rfl <;> rfl
  rw [hname] at hA
  obtain ⟨e1, e2⟩ := hstay m hpost _ none hA (by
    rw [hh (by rcases hsymm with rfl | rfl <;> decide)]; exact (untouched_none hpre).2)
  obtain ⟨a, ha, u, d, hvu, hvd, rfl⟩ := hA' i _ hx
  refine ⟨c, u, d, hci, hvu, hvd, fun hcu hcd full nparams rinit r hr n y n' y' hy hy' => ?_⟩
  rw [effType_false] at ht ha
  obtain ⟨hx0, hlk⟩ := logkVal_toward ht hcu
  obtain ⟨_, hlk'⟩ := logkVal_toward ht hcd
  dsimp only at ha
  rw [F.num, hlk, hlk', maskNorm, if_neg hx0] at ha
  have Y := sym_cell F hcell hj e1 e2 ha hr hy
  have Y' := sym_cell F hcell hj e1 e2 ha hr hy'
  rw [Y, Y']
  refine ⟨fun hs => ?_, fun hs => ?_⟩
  · subst hs
    exact predicted_averaged hcu hcd
  · subst hs
    obtain ⟨a1, a2⟩ := mirrored_toward hcu
    obtain ⟨b1, b2⟩ := mirrored_toward hcd
    simp only [computeAsym]
    split_ifs
    · left
      rw [mul_one, mul_neg_one, ← a2, predicted_toward hcu, predicted_toward a1]
      exact ⟨rfl, rfl⟩
    · right
      rw [mul_one, mul_neg_one, neg_neg, ← b2, predicted_toward hcd, predicted_toward b1]
      exact ⟨rfl, rfl⟩

/-- C08, linear and quadratic symmetrisation, from the calls: the pair is split into two nuisances; with the average at +1 (-1) and the difference at 1
(linear) or 1/√3 (quadratic) the prediction is the up (down) template times the rate. -/
theorem c08_calls_split (cfg : Cfg ℝ) (pre post : List (Op ℝ)) (hu hw : HIn ℝ) (m proc chan : String) (mirror : Bool) (symm : Symm)
    (hsymm : symm = .linear ∨ symm = .quadratic) (asDiff : Bool) (o : SystOpts)
    (iter : List String → List String) (t : Tensor ℝ)
    (F : Spec.file cfg (pre ++ .syst (.pair hu hw) m proc chan 1 mirror symm false asDiff o :: post) iter t)
    (hok : (step cfg (.syst (.pair hu hw) m proc chan 1 mirror symm false asDiff o) (run cfg pre)).2 = .ok ())
    (hpre : ∀ op ∈ pre, ¬ Spec.touches chan proc (m ++ "SymAvg") op ∧ ¬ Spec.touches chan proc (m ++ "SymDiff") op)
    (hpost : ∀ op ∈ post, ¬ Spec.touches chan proc (m ++ "SymAvg") op ∧ ¬ Spec.touches chan proc (m ++ "SymDiff") op)
    (i g p : Nat) (hcell : Spec.cellAt t chan proc i g p)
    (j k : Nat) (hj : t.systs[j]? = some (m ++ "SymAvg")) (hk : t.systs[k]? = some (m ++ "SymDiff")) :
    ∃ c u d, t.channelInfo.get? chan = some c ∧ Spec.varied hu c.flow asDiff i (t.sumw g p) u ∧
      Spec.varied hw c.flow asDiff i (t.sumw g p) d ∧
      (Spec.connected cfg.systType (t.sumw g p) u → Spec.connected cfg.systType (t.sumw g p) d →
      ∀ full nparams rinit r, Spec.ratesAt cfg.systType nparams rinit r g p → ∀ w : ℝ, w = (if symm = .linear then 1 else 1 / √3) → ∀ n y,
        (t.yields cfg.systType full nparams rinit r (Spec.two j k 1 w) = .ok (n, y) → y g p = r.at g p * u) ∧
        (t.yields cfg.systType full nparams rinit r (Spec.two j k (-1) w) = .ok (n, y) → y g p = r.at g p * d)) := by
  obtain ⟨c, n, hc, hn, hadd⟩ := syst_accepted hok
  have hkp := (keeps_addSystematic cfg (.pair hu hw) m proc chan 1 mirror symm false asDiff o).run (run cfg pre)
  rw [hadd] at hkp
  have hnorm : (step cfg (.syst (.pair hu hw) m proc chan 1 mirror symm false asDiff o) (run cfg pre)).1.norm = (run cfg pre).norm := congrArg Core.norm hkp
  obtain ⟨l, rfl, hlen, hx, hci, hstay⟩ := read_back F hcell hc hn hnorm
  obtain ⟨_, g2⟩ := fitting_split F.fits
  obtain ⟨z1, z2⟩ := g2.1 c hc
  obtain ⟨_, ht, ⟨A, hA, hA'⟩, _, hB, hh⟩ := pair_stored F.dense hc hn (z1.1.trans hlen.symm) (z2.1.trans hlen.symm) hadd
  obtain ⟨B, hB, hB'⟩ := hB hsymm
  have hname : avgName symm m = m ++ "SymAvg" := by rcases hsymm with rfl | rfl <;> rfl
  rw [hname] at hA
  have hhalf := hh (by rcases hsymm with rfl | rfl <;> decide)
  obtain ⟨e1, e2⟩ := hstay _ (fun op ho => (hpost op ho).1) _ none hA (by
    rw [hhalf]; exact (untouched_none fun op ho => (hpre op ho).1).2)
  obtain ⟨e3, e4⟩ := hstay _ (fun op ho => (hpost op ho).2) _ none hB (by
    rw [hhalf]; exact (untouched_none fun op ho => (hpre op ho).2).2)
  obtain ⟨a, ha, u, d, hvu, hvd, rfl⟩ := hA' i _ hx
  obtain ⟨b, hb, u', d', ⟨v1, q1, r1⟩, ⟨v2, q2, r2⟩, rfl⟩ := hB' i _ hx
  obtain ⟨w1, s1, t1⟩ := hvu
  obtain ⟨w2, s2, t2⟩ := hvd
  rw [q1] at s1
  rw [q2] at s2
  cases s1
  cases s2
  obtain rfl : u' = u := r1.trans t1.symm
  obtain rfl : d' = d := r2.trans t2.symm
  refine ⟨c, u', d', hci, ⟨v1, q1, r1⟩, ⟨v2, q2, r2⟩, fun hcu hcd full nparams rinit r hr w hwt n y => ?_⟩
  rw [effType_false] at ht ha hb
  obtain ⟨hx0, hlk⟩ := logkVal_toward ht hcu
  obtain ⟨_, hlk'⟩ := logkVal_toward ht hcd
  dsimp only at ha hb
  rw [F.num, hlk, hlk', maskNorm, if_neg hx0] at ha hb
  have hjk : j ≠ k := by
    rintro rfl
    rw [hj] at hk
    exact absurd ((String.append_right_inj _).1 (Option.some.inj hk)) (by decide)
  have hS : ∀ σ : ℝ, varSum t (run cfg (pre ++ .syst (.pair hu hw) m proc chan 1 mirror symm false asDiff o :: post)) chan proc i (Spec.two j k σ w) =
      (1 / 2) * (toward cfg.systType (t.sumw g p) u' + -toward cfg.systType (t.sumw g p) d') * σ +
        (1 / 2) * (toward cfg.systType (t.sumw g p) u' - -toward cfg.systType (t.sumw g p) d') := by
    intro σ
    rw [varSum_two hj hk hjk (varAt_half_none e2 i) (varAt_half_none e4 i), varAt_of false (by rw [e1]; exact Option.some_ne_none _) e1 ha,
      varAt_of false (by rw [e3]; exact Option.some_ne_none _) e3 hb]
    rcases hsymm with rfl | rfl
    · rw [if_pos rfl] at hwt
      subst hwt
      simp only [computeAsym, Option.getD_some]; ring
    · rw [if_neg (by decide)] at hwt
      subst hwt
      have h3 : (√3 : ℝ) ≠ 0 := by positivity
      have h4 : Yields.num.sqrt3 = √3 := rfl
      simp only [computeAsym, Option.getD_some, h4]
      field_simp
  constructor
  · intro hy
    rw [F.cell hcell full nparams rinit r hr _ n y hy, hS]
    rw [show ∀ a b : ℝ, 1 / 2 * (a + -b) * 1 + 1 / 2 * (a - -b) = a from fun a b => by ring, predicted_toward hcu]
  · intro hy
    rw [F.cell hcell full nparams rinit r hr _ n y hy, hS]
    rw [show ∀ a b : ℝ, 1 / 2 * (a + -b) * (-1) + 1 / 2 * (a - -b) = b from fun a b => by ring, predicted_toward hcd]

/-- C07, locality: a nuisance for which no call asked in this channel and process does not change the prediction there, at any parameter point. -/
theorem c07_calls_local (cfg : Cfg ℝ) (ops : List (Op ℝ)) (iter : List String → List String) (t : Tensor ℝ) (F : Spec.file cfg ops iter t)
    (m proc chan : String) (hno : ∀ op ∈ ops, ¬ Spec.touches chan proc m op) (i g p : Nat) (hcell : Spec.cellAt t chan proc i g p)
    (j : Nat) (hj : t.systs[j]? = some m) (θ θ' : Nat → ℝ) (hθ : ∀ k, k ≠ j → θ k = θ' k)
    (full : Bool) (nparams : Nat) (rinit r : Yields.Rates) (hr : Spec.ratesAt cfg.systType nparams rinit r g p) (n n' : Nat → ℝ) (y y' : Nat → Nat → ℝ)
    (hy : t.yields cfg.systType full nparams rinit r θ = .ok (n, y)) (hy' : t.yields cfg.systType full nparams rinit r θ' = .ok (n', y')) :
    y g p = y' g p := by
  rw [F.cell hcell full nparams rinit r hr _ n y hy, F.cell hcell full nparams rinit r hr _ n' y' hy']
  congr 1
  obtain ⟨_, h2⟩ := systs_getD hj
  obtain ⟨h3, _⟩ := untouched_none (cfg := cfg) hno
  unfold varSum
  refine sum_congr rfl fun k _ => ?_
  by_cases hk : k = j
  · subst hk
    rw [h2, varAt_none h3, varAt_none h3]; simp
  · rw [hθ k hk]

theorem Spec.file.yields_ok {cfg : Cfg ℝ} {ops : List (Op ℝ)} {iter : List String → List String} {t : Tensor ℝ} (F : Spec.file cfg ops iter t)
    (full : Bool) (nparams : Nat) (rinit r : Yields.Rates) (hr : r.rows = 1) (θ : Nat → ℝ) : ∃ n y, t.yields cfg.systType full nparams rinit r θ = .ok (n, y) := by
  obtain ⟨norm, logk, hb, _⟩ := c07_dense_written cfg F.dense ops F.fresh iter t F.written
  unfold Tensor.yields
  rw [hb]
  dsimp only
  unfold Yields.Dense.compute
  rw [if_pos (.inl hr)]
  exact ⟨_, _, rfl⟩

/-! ### Cases -/

namespace Ex

noncomputable def cfgV : Cfg ℝ := ⟨Yields.num, false, .normal, true, false, fun a b => a.bins == b.bins⟩

noncomputable def preV : List (Op ℝ) := [.channel [ax 2] (some "a") false false, .process (hr [1, 2]) "p" "a" true none, .data (hr [2, 3]) "a" none]

noncomputable def pairV (symm : Symm) : Op ℝ := .syst (.pair (hr [2, 3]) (hr [1, 1])) "n" "p" "a" 1 true symm false false {}

noncomputable def singleV : Op ℝ := .syst (.single (hr [2, 3])) "n" "p" "a" 1 true .average false false {}

/-- a nuisance of another name for the same process -/
noncomputable def otherV : Op ℝ := .syst (.single (hr [1, 1])) "o" "p" "a" 1 true .average false false {}

def viewB (s : List String) (t : Tensor ℝ) : Bool := t.procs == ["p"] && t.systs == s && readerFrom 0 t.channelInfo == [("a", 0, 2)]

def okB {α : Type} (r : Res α) (f : α → Bool) : Bool := match r with
  | .ok a => f a
  | .error _ => false

theorem okB_iff {α : Type} {r : Res α} {f : α → Bool} (h : okB r f = true) : ∃ t, r = .ok t ∧ f t = true := by
  cases r with
  | ok a => exact ⟨a, rfl, h⟩
  | error e => cases h

/-- calls with these histograms can be followed by `decide` -/
theorem fileV {l : List (Op ℝ)} {s : List String} (hg : goodB cfgV {} (preV ++ l) = true) (hv : okB (write cfgV id (run cfgV (preV ++ l))).2 (viewB s) = true) :
    ∃ t, Spec.file cfgV (preV ++ l) id t ∧ Spec.cellAt t "a" "p" 0 0 0 ∧ t.systs = s := by
  obtain ⟨t, ht, hb⟩ := okB_iff hv
  obtain ⟨h1, h2⟩ := goodB_iff _ _ _ hg
  simp only [viewB, Bool.and_eq_true, beq_iff_eq] at hb
  exact ⟨t, ⟨rfl, rfl, h1, h2, ht⟩, ⟨0, 2, by rw [hb.2]; exact List.mem_cons_self, by decide, rfl, by rw [hb.1.1]; rfl⟩, hb.1.2⟩

macro "evalV" : tactic => `(tactic| (
  simp only [goodB, run, runOps, preV, pairV, singleV, otherV, List.cons_append, List.nil_append, step, addProcess, addData, fitsB, sizeB, optB,
    Option.getD_none, hr_vars _ 1 2 one_pos.le two_pos.le, hr_sumw2 _ 1 2 one_pos.le two_pos.le, hr_vars _ 2 3 two_pos.le three_pos.le,
    hr_vars _ 1 1 one_pos.le one_pos.le]
  decide +kernel))

theorem pre_norm : Spec.at2 (run cfgV preV).norm "a" "p" = some (.dense [1, 2]) := by
  simp only [run, runOps, preV, step, addProcess, addData, Option.getD_none, hr_sumw2 _ 1 2 one_pos.le two_pos.le, hr_vars _ 2 3 two_pos.le three_pos.le]
  rfl

theorem norm_step (op : Op ℝ) (h : op = pairV .none ∨ op = pairV .average ∨ op = pairV .linear ∨ op = singleV ∨ op = otherV) (s : State ℝ) :
    (step cfgV op s).1.norm = s.norm := by
  rcases h with rfl | rfl | rfl | rfl | rfl <;> exact congrArg Core.norm ((keeps_addSystematic ..).run s)

theorem sumwV {a b : Op ℝ} {t : Tensor ℝ} (F : Spec.file cfgV (preV ++ [a, b]) id t) (hc : Spec.cellAt t "a" "p" 0 0 0)
    (ha : a = pairV .none ∨ a = pairV .average ∨ a = pairV .linear ∨ a = singleV ∨ a = otherV)
    (hb : b = pairV .none ∨ b = pairV .average ∨ b = pairV .linear ∨ b = singleV ∨ b = otherV) : t.sumw 0 0 = 1 := by
  have hn : (run cfgV (preV ++ [a, b])).norm = (run cfgV preV).norm := by
    unfold run
    rw [runOps_append]
    simp only [runOps]
    rw [norm_step b hb, norm_step a ha]
  obtain ⟨l, h1, h2⟩ := F.nominal hc (n := .dense [1, 2]) (by rw [hn]; exact pre_norm)
  cases h1
  exact (Option.some.inj h2).symm

theorem pre_untouched (m : String) : ∀ op ∈ preV, ¬ Spec.touches "a" "p" m op := by
  intro op ho
  simp only [preV, List.mem_cons, List.not_mem_nil, or_false] at ho
  rcases ho with rfl | rfl | rfl <;> exact fun e => e

theorem other_untouched (m : String) (hm : m ≠ "o") : ∀ op ∈ [otherV], ¬ Spec.touches "a" "p" m op := by
  intro op ho e
  rw [List.mem_singleton.1 ho] at e
  exact hm e.2.2

theorem ok_of {r : Res Unit} (h : r.isOk = true) : r = .ok () := by
  cases r with
  | ok u => rfl
  | error e => cases h

end Ex

/-- The hypotheses of `c07_calls_pair` and `c07_calls_local` are met (another nuisance follows); predictions with rate 5. -/
example : ∃ t : Tensor ℝ, (∀ n y, t.yields .normal true 1 ⟨1, fun _ _ => 5⟩ ⟨1, fun _ _ => 5⟩ (Yields.Spec.single 0 1) = .ok (n, y) → y 0 0 = 10) ∧
    ∀ n y, t.yields .normal true 1 ⟨1, fun _ _ => 5⟩ ⟨1, fun _ _ => 5⟩ (Yields.Spec.single 0 (-1)) = .ok (n, y) → y 0 0 = 5 := by
  obtain ⟨t, h1, h2, h3⟩ := Ex.fileV (l := [Ex.pairV .none, Ex.otherV]) (s := ["n", "o"]) (by evalV) (by evalV)
  obtain ⟨c, u, d, -, ⟨v, hv, rfl⟩, ⟨w, hw, rfl⟩, h⟩ := c07_calls_pair Ex.cfgV Ex.preV [Ex.otherV] (Ex.hr [2, 3]) (Ex.hr [1, 1]) "n" "p" "a" true false {} id t h1
    (Ex.ok_of (by evalV)) (Ex.other_untouched _ (by decide)) 0 0 0 h2 0 (by rw [h3]; rfl)
  have hs := Ex.sumwV h1 h2 (by simp) (by simp)
  cases hv
  cases hw
  have hc : ∀ u : ℝ, Spec.connected .normal (t.sumw 0 0) u := fun u => by simp [Spec.connected, hs]
  refine ⟨t, fun n y hy => ?_, fun n y hy => ?_⟩
  · have := (h true 1 ⟨1, fun _ _ => 5⟩ ⟨1, fun _ _ => 5⟩ (.inr rfl) n y).1 (hc _) hy
    rw [this]; simp [Yields.Rates.at]; norm_num
  · have := (h true 1 ⟨1, fun _ _ => 5⟩ ⟨1, fun _ _ => 5⟩ (.inr rfl) n y).2 (hc _) hy
    rw [this]; simp [Yields.Rates.at]

/-- The hypotheses of `c07_calls_mirrored` are met. -/
example : ∃ t : Tensor ℝ, (∀ n y, t.yields .normal true 1 ⟨1, fun _ _ => 5⟩ ⟨1, fun _ _ => 5⟩ (Yields.Spec.single 0 1) = .ok (n, y) → y 0 0 = 10) ∧
    ∀ n y, t.yields .normal true 1 ⟨1, fun _ _ => 5⟩ ⟨1, fun _ _ => 5⟩ (Yields.Spec.single 0 (-1)) = .ok (n, y) → y 0 0 = 0 := by
  obtain ⟨t, h1, h2, h3⟩ := Ex.fileV (l := [Ex.singleV, Ex.otherV]) (s := ["n", "o"]) (by evalV) (by evalV)
  obtain ⟨c, u, -, ⟨v, hv, rfl⟩, h⟩ := c07_calls_mirrored Ex.cfgV Ex.preV [Ex.otherV] (Ex.hr [2, 3]) "n" "p" "a" true .average false {} id t h1
    (Ex.ok_of (by evalV)) (Ex.pre_untouched _) (Ex.other_untouched _ (by decide)) 0 0 0 h2 0 (by rw [h3]; rfl)
  have hs := Ex.sumwV h1 h2 (by simp) (by simp)
  cases hv
  have hc : ∀ u : ℝ, Spec.connected .normal (t.sumw 0 0) u := fun u => by simp [Spec.connected, hs]
  have := h (hc _) true 1 ⟨1, fun _ _ => 5⟩ ⟨1, fun _ _ => 5⟩ (.inr rfl)
  refine ⟨t, fun n y hy => ?_, fun n y hy => ?_⟩
  · rw [(this n y).1 hy]; simp [Yields.Rates.at]; norm_num
  · rw [(this n y).2 hy]; simp [Yields.Rates.at, Spec.mirrored, Ex.cfgV, hs]

/-- The hypotheses of `c08_calls_symmetrised` are met. -/
example : ∃ t, Spec.file Ex.cfgV (Ex.preV ++ [Ex.pairV .average, Ex.otherV]) id t ∧ Spec.cellAt t "a" "p" 0 0 0 ∧ t.systs = ["n", "o"] ∧
    (step Ex.cfgV (Ex.pairV .average) (run Ex.cfgV Ex.preV)).2.isOk = true ∧ (∀ op ∈ Ex.preV, ¬ Spec.touches "a" "p" "n" op) ∧
    (∀ op ∈ [Ex.otherV], ¬ Spec.touches "a" "p" "n" op) ∧ t.sumw 0 0 = 1 := by
  obtain ⟨t, h1, h2, h3⟩ := Ex.fileV (l := [Ex.pairV .average, Ex.otherV]) (s := ["n", "o"]) (by evalV) (by evalV)
  exact ⟨t, h1, h2, h3, by evalV, Ex.pre_untouched _, Ex.other_untouched _ (by decide), Ex.sumwV h1 h2 (by simp) (by simp)⟩

/-- The hypotheses of `c08_calls_split` are met. -/
example : ∃ t, Spec.file Ex.cfgV (Ex.preV ++ [Ex.pairV .linear, Ex.otherV]) id t ∧ Spec.cellAt t "a" "p" 0 0 0 ∧
    t.systs = ["nSymAvg", "nSymDiff", "o"] ∧
    (step Ex.cfgV (Ex.pairV .linear) (run Ex.cfgV Ex.preV)).2.isOk = true ∧ (∀ m, ∀ op ∈ Ex.preV, ¬ Spec.touches "a" "p" m op) ∧
    (∀ m, m ≠ "o" → ∀ op ∈ [Ex.otherV], ¬ Spec.touches "a" "p" m op) ∧ t.sumw 0 0 = 1 := by
  obtain ⟨t, h1, h2, h3⟩ := Ex.fileV (l := [Ex.pairV .linear, Ex.otherV]) (s := ["nSymAvg", "nSymDiff", "o"]) (by evalV) (by evalV)
  exact ⟨t, h1, h2, h3, by evalV, Ex.pre_untouched, Ex.other_untouched, Ex.sumwV h1 h2 (by simp) (by simp)⟩

/-- C07 does not hold for a nuisance that is added again: a mirrored template after a pair replaces the average only, the difference of the pair stays, and
the prediction at +1 is not that of the template added last. -/
theorem c07_readd_violated : ∃ (cfg : Cfg ℝ) (pre : List (Op ℝ)) (hu : HIn ℝ) (m proc chan : String) (t : Tensor ℝ),
    Spec.file cfg (pre ++ [.syst (.single hu) m proc chan 1 true .average false false {}]) id t ∧
    (step cfg (.syst (.single hu) m proc chan 1 true .average false false {}) (run cfg pre)).2 = .ok () ∧
    Spec.cellAt t chan proc 0 0 0 ∧ t.systs[0]? = some m ∧ Spec.varied hu false false 0 (t.sumw 0 0) 2 ∧
    Spec.connected cfg.systType (t.sumw 0 0) 2 ∧ ∃ n y,
      t.yields cfg.systType true 1 ⟨1, fun _ _ => 1⟩ ⟨1, fun _ _ => 1⟩ (Yields.Spec.single 0 1) = .ok (n, y) ∧ y 0 0 = 5 / 2 := by
  obtain ⟨t, h1, h2, h3⟩ := Ex.fileV (l := [Ex.pairV .none, Ex.singleV]) (s := ["n"]) (by evalV) (by evalV)
  have hs := Ex.sumwV h1 h2 (by simp) (by simp)
  have hj : t.systs[0]? = some "n" := by rw [h3]; rfl
  have h1' : Spec.file Ex.cfgV ((Ex.preV ++ [Ex.pairV .none]) ++ [Ex.singleV]) id t := by simpa using h1
  have ok1 : (step Ex.cfgV (Ex.pairV .none) (run Ex.cfgV Ex.preV)).2 = .ok () := Ex.ok_of (by evalV)
  have ok2 : (step Ex.cfgV Ex.singleV (run Ex.cfgV (Ex.preV ++ [Ex.pairV .none]))).2 = .ok () := Ex.ok_of (by evalV)
  refine ⟨Ex.cfgV, Ex.preV ++ [Ex.pairV .none], Ex.hr [2, 3], "n", "p", "a", t, h1', ok2, h2, hj, ⟨2, rfl, rfl⟩,
    by simp [Spec.connected, Ex.cfgV, hs], ?_⟩
  obtain ⟨c, n, hc, hn, hadd⟩ := syst_accepted ok1
  have hn' := hn
  rw [Ex.pre_norm] at hn'
  cases hn'
  obtain ⟨hnorm1, _, _, hB, _, _⟩ := pair_stored rfl hc hn (hu := Ex.hr [2, 3]) (hw := Ex.hr [1, 1]) rfl rfl hadd
  obtain ⟨B, hB, hB'⟩ := hB rfl
  obtain ⟨b, hb, u, d, ⟨_, q1, rfl⟩, ⟨_, q2, rfl⟩, rfl⟩ := hB' 0 1 rfl
  cases q1
  cases q2
  obtain ⟨c2, n2, hc2, hn2, hadd2⟩ := syst_accepted ok2
  have hrun : run Ex.cfgV (Ex.preV ++ [Ex.pairV .none]) = (step Ex.cfgV (Ex.pairV .none) (run Ex.cfgV Ex.preV)).1 := by
    unfold run; rw [runOps_append]; rfl
  have hn2' := hn2
  rw [hrun, Ex.norm_step _ (by simp), Ex.pre_norm] at hn2'
  cases hn2'
  obtain ⟨_, hh, _, A, hA, hA'⟩ := single_stored rfl hc2 hn2 (h := Ex.hr [2, 3]) rfl hadd2
  obtain ⟨a, ha, u, ⟨_, q1, rfl⟩, rfl⟩ := hA' 0 1 rfl
  cases q1
  have hrun2 : run Ex.cfgV (Ex.preV ++ [Ex.pairV .none, Ex.singleV]) =
      (step Ex.cfgV Ex.singleV (run Ex.cfgV (Ex.preV ++ [Ex.pairV .none]))).1 := by
    rw [show Ex.preV ++ [Ex.pairV .none, Ex.singleV] = (Ex.preV ++ [Ex.pairV .none]) ++ [Ex.singleV] by simp]
    unfold run; rw [runOps_append]; rfl
  have e1 : Spec.at3 (run Ex.cfgV (Ex.preV ++ [Ex.pairV .none, Ex.singleV])).logkavg "a" "p" "n" = some (.dense A) := by rw [hrun2]; exact hA
  have e2 : Spec.at3 (run Ex.cfgV (Ex.preV ++ [Ex.pairV .none, Ex.singleV])).logkhalf "a" "p" "n" = some (.dense B) := by
    rw [hrun2]
    show Spec.at3 ((step Ex.cfgV Ex.singleV (run Ex.cfgV (Ex.preV ++ [Ex.pairV .none]))).1).logkhalf "a" "p" "n" = _
    rw [show ((step Ex.cfgV Ex.singleV (run Ex.cfgV (Ex.preV ++ [Ex.pairV .none]))).1).logkhalf = _ from hh, hrun]
    exact hB
  obtain ⟨n, y, hy⟩ := h1.yields_ok true 1 ⟨1, fun _ _ => 1⟩ ⟨1, fun _ _ => 1⟩ rfl (Yields.Spec.single 0 1)
  refine ⟨n, y, hy, ?_⟩
  rw [h1.cell h2 true 1 _ _ (.inr rfl) _ n y hy, varSum_single _ _ _ _ hj, not_symmetric h1.written e2,
    varAt_of false (by rw [e1]; exact Option.some_ne_none _) e1 ha, varAt_of true (by rw [e1]; exact Option.some_ne_none _) e2 hb, alpha_pm (.inl rfl), hs]
  simp [predicted, Ex.cfgV, maskNorm, logkVal, effType, computeAsym, Yields.Rates.at]
  norm_num

end Verif.Writer
