import Verif.Lemmas.Merge
import Verif.Props.WriterCov
import Verif.Props.WriterBookings
import Verif.Props.WriterProcs
import Verif.Props.Yields

/-!
C59: merging tensors reproduces the predicted yields of every input for every nuisance value.
-/

set_option linter.unusedSectionVars false

namespace Verif.Merge

open Verif.Logk Verif.Writer Verif.Writer.M Finset

/-! ### Specification -/

/-- the sizes and flags the fit reads from a tensor (inputdata.py:73-110) -/
def Spec.shape (st : SystType) (t : Tensor ℝ) : Yields.Shape :=
  ⟨t.nbins, t.nbinsfull, t.procs.length, t.systs.length, t.symmetric, decide (st = .logNormal)⟩

/-- nuisance values given by name, in the order of the tensor -/
def Spec.values (t : Tensor ℝ) (θ : String → ℝ) (j : Nat) : ℝ := θ (t.systs.getD j "")

/-- the predicted yield of a bin and process for nuisance values given by name, rate factor `r` and rate factor
`rinit` at the default parameters of a model with `npar` parameters (`_init_logk_scaled`, `_compute_yields_noBBB`) -/
noncomputable def Spec.yield (st : SystType) (t : Tensor ℝ) (norm : Nat → Nat → ℝ) (logk : Nat → Nat → Nat → Nat → ℝ)
    (npar : Nat) (rinit r : Yields.Rates) (θ : String → ℝ) (b p : Nat) : ℝ :=
  let s := Spec.shape st t
  (Yields.Dense.scaled s npar rinit ⟨norm, logk⟩).yield s r (Spec.values t θ) b p

/-- What is asked of an input tensor: names are unique, fitted channels have no flow bins, templates are not negative, and
with additive variations an empty bin of a template does not vary.  (`c59_written_partial`: tensors written by the writer
meet this.) -/
structure Spec.Readable (I : Input ℝ) : Prop where
  procs : I.tensor.procs.Nodup
  systs : I.tensor.systs.Nodup
  flow : ∀ e ∈ I.tensor.channelInfo, e.2.masked = false → e.2.flow = false
  pos : ∀ norm logk, I.tensor.body = .dense norm logk → ∀ name a b, (name, a, b) ∈ readerFrom 0 I.tensor.channelInfo →
    ∀ ip, ip < I.tensor.procs.length → ∀ i, i < b - a → 0 ≤ norm (a + i) ip
  empty : I.systType = .normal → ∀ norm logk, I.tensor.body = .dense norm logk →
    ∀ name a b, (name, a, b) ∈ readerFrom 0 I.tensor.channelInfo →
    ∀ ip, ip < I.tensor.procs.length → ∀ i, i < b - a → norm (a + i) ip = 0 →
    ∀ j, j < I.tensor.systs.length → ∀ k, k < 2 → logk (a + i) ip k j = 0

/-- a nuisance that two inputs share is unconstrained in both or in none -/
def Spec.agree (Is : List (Input ℝ)) : Prop :=
  ∀ I ∈ Is, ∀ J ∈ Is, ∀ m, m ∈ I.tensor.systs → m ∈ J.tensor.systs →
    m ∈ I.tensor.noConstraint → m ∈ J.tensor.noConstraint

/-! ### Elements -/

theorem elem_roundtrip {st : SystType} (hst : st ≠ .other) (v N : ℝ) (hN : N ≠ 0) :
    logkVal Yields.num st 1 (varied Real.exp st v N) N = v := by
  cases st with
  | other => exact absurd rfl hst
  | normal => simp [logkVal, varied]
  | logNormal =>
    have h : 0 < N * (Real.exp v * N) := by
      have h2 : 0 < N * N := mul_self_pos.2 hN
      nlinarith [mul_pos (Real.exp_pos v) h2]
    have e : varied Real.exp .logNormal v N = Real.exp v * N := rfl
    rw [e]
    unfold logkVal
    dsimp only
    rw [if_pos h, mul_div_assoc, div_self hN, mul_one, one_mul]
    exact Real.log_exp v

/-! ### Sums over nuisances -/

/-- the exponent (or shift) of a cell as a sum over nuisances -/
theorem logsnorm_eq (s : Yields.Shape) (d : Yields.Dense) (θ : Nat → ℝ) (b p : Nat) :
    d.logsnorm s θ b p = ∑ j ∈ range s.nsyst, (d.logk b p 0 j * θ j +
      (if s.symmetric then 0 else d.logk b p 1 j) * (θ j * Interp.alpha (θ j))) := by
  unfold Yields.Dense.logsnorm
  by_cases hs : s.symmetric = true
  · have hn : s.ncol = s.nsyst := by simp [Yields.Shape.ncol, hs]
    rw [hn]
    refine sum_congr rfl fun j _ => ?_
    simp [Yields.mtheta, Yields.Dense.mlogk, hs]
  · have hn : s.ncol = s.nsyst + s.nsyst := by simp [Yields.Shape.ncol, hs]; ring
    rw [hn, sum_range_add, ← sum_add_distrib]
    refine sum_congr rfl fun j hj => ?_
    rw [mem_range] at hj
    have hpos : 0 < s.nsyst := by omega
    have h1 : (s.nsyst + j) / s.nsyst = 1 := by rw [Nat.add_div_left _ hpos, Nat.div_eq_of_lt hj]
    have h2 : (s.nsyst + j) % s.nsyst = j := by rw [Nat.add_mod_left, Nat.mod_eq_of_lt hj]
    simp only [Yields.mtheta, Yields.Dense.mlogk, hs, h1, h2, Nat.div_eq_of_lt hj, Nat.mod_eq_of_lt hj]
    simp

theorem getD_lt {l : List String} {j : Nat} (h : j < l.length) : l.getD j "" = l[j] := by
  rw [List.getD_eq_getElem?_getD, List.getElem?_eq_getElem h]; rfl

/-- sums over two lists of distinct names agree if the terms of common names do and all others vanish -/
theorem sum_names {l l' : List String} (hl : l.Nodup) (hl' : l'.Nodup) {f f' : Nat → ℝ}
    (hc : ∀ (j j' : Nat) (m : String), l[j]? = some m → l'[j']? = some m → f j = f' j')
    (h1 : ∀ (j : Nat) (m : String), l[j]? = some m → m ∉ l' → f j = 0)
    (h2 : ∀ (j' : Nat) (m : String), l'[j']? = some m → m ∉ l → f' j' = 0) :
    ∑ j ∈ range l.length, f j = ∑ j ∈ range l'.length, f' j := by
  have key : ∀ (l l' : List String), l.Nodup → l'.Nodup → ∀ f : Nat → ℝ,
      (∀ (j : Nat) (m : String), l[j]? = some m → m ∉ l' → f j = 0) →
      ∑ j ∈ range l.length, f j = ∑ m ∈ l.toFinset ∩ l'.toFinset, f (l.idxOf m) := by
    intro l l' hl _ f h0
    have e1 : ∑ j ∈ range l.length, f j = ∑ m ∈ l.toFinset, f (l.idxOf m) := by
      refine sum_bij' (fun j _ => l.getD j "") (fun m _ => l.idxOf m) ?_ ?_ ?_ ?_ ?_
      · intro j hj
        rw [mem_range] at hj
        rw [List.mem_toFinset, getD_lt hj]
        exact List.getElem_mem hj
      · intro m hm
        rw [List.mem_toFinset] at hm
        exact mem_range.2 (List.idxOf_lt_length_iff.2 hm)
      · intro j hj
        rw [mem_range] at hj
        rw [getD_lt hj, hl.idxOf_getElem j hj]
      · intro m hm
        rw [List.mem_toFinset] at hm
        have := List.idxOf_lt_length_iff.2 hm
        rw [getD_lt this, List.getElem_idxOf this]
      · intro j hj
        rw [mem_range] at hj
        rw [getD_lt hj, hl.idxOf_getElem j hj]
    rw [e1]
    symm
    refine sum_subset inter_subset_left fun m hm hn => ?_
    rw [List.mem_toFinset] at hm
    have hlt := List.idxOf_lt_length_iff.2 hm
    refine h0 (l.idxOf m) m ?_ fun h' => hn (mem_inter.2 ⟨List.mem_toFinset.2 hm, List.mem_toFinset.2 h'⟩)
    rw [List.getElem?_eq_getElem hlt, List.getElem_idxOf hlt]
  rw [key l l' hl hl' f h1, key l' l hl' hl f' h2, inter_comm]
  refine sum_congr rfl fun m hm => ?_
  obtain ⟨a, b⟩ := mem_inter.1 hm
  rw [List.mem_toFinset] at a b
  refine hc _ _ m ?_ ?_
  · have := List.idxOf_lt_length_iff.2 b
    rw [List.getElem?_eq_getElem this, List.getElem_idxOf this]
  · have := List.idxOf_lt_length_iff.2 a
    rw [List.getElem?_eq_getElem this, List.getElem_idxOf this]

/-! ### The merged tensor -/

theorem blocks_n {L : Dict String Chan} {k : Block} : ∀ {ibin : Nat}, k ∈ blocksFrom ibin L →
    k.n = prod (dims false k.chan.axes) := by
  induction L with
  | nil => intro ibin h; cases h
  | cons e L ih =>
    obtain ⟨n, c⟩ := e
    intro ibin h
    unfold blocksFrom at h
    rcases List.mem_cons.1 h with rfl | h
    · rfl
    · exact ih h

section
variable {V : Type} [Field V] [LinearOrder V] [IsStrictOrderedRing V]

theorem inactive_zero {t : Tensor V} {logk : Nat → Nat → Nat → Nat → V} {k : Block} {p j : Nat}
    (h : active t logk k p j = false) {i : Nat} (hi : i < k.n) :
    logk (k.start + i) p 0 j = 0 ∧ halfOf t logk (k.start + i) p j = 0 := by
  unfold active at h
  rw [List.any_eq_false] at h
  have := h i (List.mem_range.2 hi)
  unfold varies at this
  unfold halfOf
  cases ht : t.symmetric with
  | true => simpa [ht] using this
  | false => simpa [ht] using this

/-- one cell of a merged tensor -/
structure Cell' (t : Tensor V) (norm' : Nat → Nat → V) (logk' : Nat → Nat → Nat → Nat → V) (x : Piece V) (a' i ip ip' : Nat) :
    Prop where
  norm : norm' (a' + i) ip' = x.norm (x.k.start + i) ip
  sumw2 : t.sumw2 (a' + i) ip' = x.I.tensor.sumw2 (x.k.start + i) ip
  avg : ∀ (j is : Nat) (m : String), x.I.tensor.systs[j]? = some m → t.systs[is]? = some m →
    logk' (a' + i) ip' 0 is = maskNorm (x.norm (x.k.start + i) ip) (x.logk (x.k.start + i) ip 0 j)
  half : ∀ (j is : Nat) (m : String), x.I.tensor.systs[j]? = some m → t.systs[is]? = some m →
    (if t.symmetric then 0 else logk' (a' + i) ip' 1 is) =
      maskNorm (x.norm (x.k.start + i) ip) (halfOf x.I.tensor x.logk (x.k.start + i) ip j)
  new : ∀ (is : Nat) (m : String), t.systs[is]? = some m → m ∉ x.I.tensor.systs →
    logk' (a' + i) ip' 0 is = 0 ∧ logk' (a' + i) ip' 1 is = 0
  gone : ∀ (j : Nat) (m : String), x.I.tensor.systs[j]? = some m → m ∉ t.systs →
    x.logk (x.k.start + i) ip 0 j = 0 ∧ halfOf x.I.tensor x.logk (x.k.start + i) ip j = 0

theorem maskNorm_zero (N : V) : maskNorm N 0 = 0 := by unfold maskNorm; split <;> rfl

theorem merged_piece {cfg : Cfg V} (hsp : cfg.sparse = false) {exp : V → V} {U : String → Prop} {L : List (Piece V)}
    {s : State V} (hM : MInv cfg exp U L s) {iter : List String → List String} (hit : ∀ l, (iter l).Perm l) {t : Tensor V}
    (hw : (write cfg iter s).2 = .ok t) :
    t.procs.Nodup ∧ t.systs.Nodup ∧ (∀ m ∈ t.systs, m ∈ t.noConstraint ↔ U m) ∧
    ∃ norm' logk', t.body = .dense norm' logk' ∧ ∀ x ∈ L, x.k.n = prod (dims false x.k.chan.axes) → x.I.tensor.systs.Nodup →
      ∃ a', (x.k.name, a', a' + x.k.n) ∈ readerFrom 0 t.channelInfo ∧
      (∀ i, i < x.k.n → t.dataObs (a' + i) = x.I.tensor.dataObs (x.k.start + i) ∧
        t.dataVar (a' + i) = x.I.tensor.dataVar (x.k.start + i)) ∧
      (∀ (ip : Nat) (p : String), x.I.tensor.procs[ip]? = some p → ∃ ip' : Nat, t.procs[ip']? = some p) ∧
      (∀ (ip ip' : Nat) (p : String), x.I.tensor.procs[ip]? = some p → t.procs[ip']? = some p →
        x.I.tensor.procs.Nodup → ∀ i, i < x.k.n → Cell' t norm' logk' x a' i ip ip') ∧
      (∀ (ip' : Nat) (p : String), t.procs[ip']? = some p → p ∉ x.I.tensor.procs → ∀ i, i < x.k.n →
        norm' (a' + i) ip' = 0 ∧ ∀ k, k < 2 → ∀ is, is < t.systs.length → logk' (a' + i) ip' k is = 0) := by
  have hrun := hM.run
  rw [hrun] at hw
  have hdt := dense_tables cfg hsp (L.flatMap (blockOps exp))
  have hcsr : Spec.csrInRange (run cfg (L.flatMap (blockOps exp))) := by
    intro chan nc proc size l h1 h2
    obtain ⟨l', hl'⟩ := hdt.norm chan proc (.csr size l) (by unfold Spec.at2; rw [h1, Option.bind_some, h2])
    cases hl'
  obtain ⟨c1, c2, c3, c4, c5, c6⟩ := c02_layout_partial cfg _ hM.fresh iter t hw hcsr
  obtain ⟨norm', logk', hbody, hlogk⟩ := c07_dense_written cfg hsp _ hM.fresh iter t hw
  have hnorm' := c6 norm' logk' hbody
  obtain ⟨bkgs, hpr, hpnd, -⟩ := c03_order cfg _ iter t hw
  have hsym := c07_symmetric_flag cfg (L.flatMap (blockOps exp))
  obtain ⟨lay, cells, W⟩ := write_ok hw
  rw [← hrun] at c1 c3 c4 c5 hlogk W hsym
  have hap := hM.apart
  have hsys : ∀ m, m ∈ t.systs ↔ booked s m := by
    intro m
    rw [W.systs]
    unfold getSysts booked
    rw [List.mem_append, (naturalSort_perm _).mem_iff, (naturalSort_perm _).mem_iff, (hit _).mem_iff, (hit _).mem_iff]
    exact or_comm
  have hsnd : t.systs.Nodup := by
    rw [W.systs]
    unfold getSysts
    rw [List.nodup_append, (naturalSort_perm _).nodup_iff, (naturalSort_perm _).nodup_iff, (hit _).nodup_iff,
      (hit _).nodup_iff]
    refine ⟨hap.nodup2, hap.nodup1, fun a ha b hb => ?_⟩
    rw [(naturalSort_perm _).mem_iff, (hit _).mem_iff] at ha hb
    rintro rfl
    exact hap.standard _ hb (hap.noConstraint _ ha)
  refine ⟨hpnd, hsnd, fun m hm => ?_, norm', logk', hbody, fun x hx hn hxs => ?_⟩
  · rw [W.noConstraint, (naturalSort_perm _).mem_iff, (hit _).mem_iff]
    refine ⟨hap.noConstraint m, fun hU => ?_⟩
    rcases (hsys m).1 hm with h | h
    · exact absurd hU (hap.standard m h)
    · exact h
  have C := hM.content x hx
  have hin : x.k.name ∈ (readerFrom 0 t.channelInfo).map (·.1) := by
    rw [c1]; exact (Dict.mem_keys_iff _ _).2 ⟨_, C.chan⟩
  obtain ⟨⟨nm, a', b'⟩, hR, hnm⟩ := List.mem_map.1 hin
  dsimp only at hnm
  subst hnm
  obtain ⟨c, hcm, hb'⟩ := mem_reader hR
  have hnd : (Dict.keys s.channels).Nodup := by
    rw [hM.channels]; unfold Dict.keys; rw [List.map_map]; exact hM.nodup
  have hcc : c = ⟨x.k.chan.axes, false, false⟩ := by
    rw [W.channelInfo] at hcm
    have := Dict.get?_of_mem _ _ _ hnd hcm
    rw [C.chan] at this
    exact (Option.some.inj this).symm
  have hb2 : b' = a' + x.k.n := by rw [hb', hcc, hn]
  subst hb2
  have hlen : a' + x.k.n - a' = x.k.n := Nat.add_sub_cancel_left _ _
  refine ⟨a', hR, fun i hi => ?_, fun ip p hp => ?_, fun ip ip' p hp hp' hnd i hi => ?_, fun ip' p hp' hno i hi => ?_⟩
  · obtain ⟨l, v, h1, h2, h3⟩ := c5 _ _ _ hR _ C.chan rfl
    rw [C.obs] at h1
    rw [C.var] at h2
    cases h1
    cases h2
    obtain ⟨g1, g2⟩ := h3 i (by rw [hlen]; exact hi)
    refine ⟨g1.trans ?_, g2.trans ?_⟩
    · exact elem_range_map _ _ _ hi _
    · exact elem_range_map _ _ _ hi _
  · have hmem : p ∈ t.procs := by
      have hW := W.procs
      unfold procsOf at hW
      split at hW
      · cases hW
      · have := (Except.ok.inj hW).symm
        rw [this, List.mem_append, (sortedNames_perm _).mem_iff, (sortedNames_perm _).mem_iff]
        exact C.proc ip p hp
    obtain ⟨ip', h1, h2⟩ := List.mem_iff_getElem.1 hmem
    exact ⟨ip', by rw [List.getElem?_eq_getElem h1, h2]⟩
  · have hT : Spec.template s x.k.name p =
        some (.dense (slice x.k fun b => x.norm b ip), slice x.k fun b => x.I.tensor.sumw2 b ip) := by
      have h1 := C.norm ip p hp
      have h2 := C.sumw2 ip p hp
      unfold Spec.at2 at h1 h2
      obtain ⟨nc, e1, e2⟩ := Option.bind_eq_some_iff.1 h1
      obtain ⟨wc, e3, e4⟩ := Option.bind_eq_some_iff.1 h2
      exact template_eq_some.2 ⟨nc, wc, e1, e3, e2, e4⟩
    have h4 := c4 _ _ _ hR ip' p hp' i (by rw [hlen]; exact hi)
    rw [hT] at h4
    dsimp only at h4
    obtain ⟨h41, h42⟩ := h4
    have hcell := fun is m hm half => hlogk _ _ _ hR ip' p hp' i (by rw [hlen]; exact hi) is m hm half
    have hunique : ∀ (j j' : Nat) (m : String), x.I.tensor.systs[j]? = some m → x.I.tensor.systs[j']? = some m → j = j' := by
      intro j j' m h1 h2
      obtain ⟨l1, g1⟩ := List.getElem?_eq_some_iff.1 h1
      obtain ⟨l2, g2⟩ := List.getElem?_eq_some_iff.1 h2
      exact (hxs.getElem_inj_iff (hi := l1) (hj := l2)).1 (g1.trans g2.symm)
    have hpunique : ∀ iq : Nat, x.I.tensor.procs[iq]? = some p → iq = ip := by
      intro iq h1
      obtain ⟨l1, g1⟩ := List.getElem?_eq_some_iff.1 h1
      obtain ⟨l2, g2⟩ := List.getElem?_eq_some_iff.1 hp
      exact (hnd.getElem_inj_iff (hi := l1) (hj := l2)).1 (g1.trans g2.symm)
    have hinact : ∀ (j : Nat) (m : String), x.I.tensor.systs[j]? = some m → active x.I.tensor x.logk x.k ip j = false →
        Spec.at3 s.logkavg x.k.name p m = none := by
      intro j m hj ha
      refine C.rest p m fun iq j' h1 h2 => ?_
      rw [hpunique iq h1, hunique j' j m h2 hj]; exact ha
    refine ⟨?_, ?_, fun j is m hj his => ?_, fun j is m hj his => ?_, fun is m his hm => ?_, fun j m hj hm => ?_⟩
    · rw [hnorm', h41]; exact elem_range_map _ _ _ hi _
    · rw [h42]; exact elem_range_map _ _ _ hi _
    · have := hcell is m his false
      simp only [Bool.false_eq_true, if_false] at this
      rw [this]
      cases ha : active x.I.tensor x.logk x.k ip j with
      | true =>
        unfold Spec.bookedVar
        rw [C.avg ip p j m hp hj ha]
        exact elem_range_map _ _ _ hi _
      | false =>
        unfold Spec.bookedVar
        rw [hinact j m hj ha, (inactive_zero ha hi).1, maskNorm_zero]
    · have := hcell is m his true
      simp only [if_true] at this
      cases ha : active x.I.tensor x.logk x.k ip j with
      | true =>
        have hh := C.half ip p j m hp hj ha
        have hs : t.symmetric = false := by
          rw [W.symmetric, ← Bool.not_eq_true]
          intro hs
          rw [hsym hs] at hh; cases hh
        rw [hs, if_neg (by simp), this]
        unfold Spec.bookedVar
        rw [C.avg ip p j m hp hj ha]
        dsimp only
        rw [if_pos rfl, hh]
        exact elem_range_map _ _ _ hi _
      | false =>
        have h0 : logk' (a' + i) ip' 1 is = 0 := by
          rw [this]
          unfold Spec.bookedVar
          rw [hinact j m hj ha]
        rw [h0, (inactive_zero ha hi).2, maskNorm_zero]
        split <;> rfl
    · have hno : Spec.at3 s.logkavg x.k.name p m = none :=
        C.rest p m fun iq j' _ h2 => absurd (List.mem_of_getElem? h2) hm
      have h1 := hcell is m his false
      have h2 := hcell is m his true
      unfold Spec.bookedVar at h1 h2
      rw [hno] at h1 h2
      exact ⟨h1, h2⟩
    · have ha : active x.I.tensor x.logk x.k ip j = false := by
        rw [← Bool.not_eq_true]
        intro ha
        exact hm ((hsys m).2 (C.book ip p j m hp hj ha))
      exact inactive_zero ha hi
  · have h4 := c4 _ _ _ hR ip' p hp' i (by rw [hlen]; exact hi)
    have hT : Spec.template s x.k.name p = none := by
      cases hT : Spec.template s x.k.name p with
      | none => rfl
      | some y =>
        obtain ⟨nc, wc, e1, e2, e3, e4⟩ := template_eq_some.1 hT
        have := C.other p hno
        unfold Spec.at2 at this
        rw [e1, Option.bind_some, e3] at this
        cases this
    rw [hT] at h4
    refine ⟨by rw [hnorm']; exact h4.1, fun k hk is his => ?_⟩
    have hnone : Spec.at3 s.logkavg x.k.name p t.systs[is] = none :=
      C.rest p _ fun iq j' h1 _ => absurd (List.mem_of_getElem? h1) hno
    have hcell := fun half => hlogk _ _ _ hR ip' p hp' i (by rw [hlen]; exact hi) is t.systs[is]
      (List.getElem?_eq_getElem his) half
    unfold Spec.bookedVar at hcell
    rw [hnone] at hcell
    have : k = 0 ∨ k = 1 := by omega
    rcases this with rfl | rfl
    · exact hcell false
    · exact hcell true

/-- a merge that succeeds saw no masked channel -/
theorem merge_unmasked {cfg : Cfg V} {exp : V → V} {Is : List (Input V)} {s s' : State V}
    (h : merge cfg exp Is s = (s', .ok ())) : ∀ I ∈ Is, ∀ e ∈ I.tensor.channelInfo, e.2.masked = false := by
  have hblk : ∀ (L : Dict String Chan) (ibin : Nat), ∀ e ∈ L, ∃ k ∈ blocksFrom ibin L, k.chan = e.2 := by
    intro L
    induction L with
    | nil => intro ibin e he; cases he
    | cons y L ih =>
      intro ibin e he
      obtain ⟨n, c⟩ := y
      rcases List.mem_cons.1 he with rfl | he
      · exact ⟨_, List.mem_cons_self .., rfl⟩
      · obtain ⟨k, hk, hc⟩ := ih (ibin + prod (dims false c.axes)) e he
        exact ⟨k, List.mem_cons_of_mem _ hk, hc⟩
  refine forEach_induction (body := mergeInput cfg exp)
    (fun done _ => ∀ I ∈ done, ∀ e ∈ I.tensor.channelInfo, e.2.masked = false) ?_ Is [] s s' (by simp) h
  intro done I t t' hd hk J hJ
  rcases List.mem_append.1 hJ with hJ | hJ
  · exact hd J hJ
  rw [List.mem_singleton.1 hJ]
  unfold mergeInput at hk
  cases hb : I.tensor.body with
  | sparse o => rw [hb] at hk; cases hk
  | dense norm logk =>
    rw [hb] at hk
    dsimp only at hk
    obtain ⟨_, hk⟩ := raiseIf_ok hk
    have := forEach_induction (body := mergeBlock cfg exp I norm logk)
      (fun bs _ => ∀ k ∈ bs, k.chan.masked = false) ?_ _ [] t t' (by simp) hk
    · intro e he
      obtain ⟨k, hk', hc⟩ := hblk I.tensor.channelInfo 0 e he
      rw [← hc]; exact this k hk'
    · intro bs k r r' hbs hm k' hk'
      rcases List.mem_append.1 hk' with hk' | hk'
      · exact hbs k' hk'
      rw [List.mem_singleton.1 hk']
      unfold mergeBlock at hm
      obtain ⟨_, hm⟩ := raiseIf_ok hm
      obtain ⟨s1, u, _, hm⟩ := bind_ok hm
      exact (raiseIf_ok hm).1

end

/-! ### C59 -/

theorem reader_of_block {L : Dict String Chan} (hfl : ∀ e ∈ L, e.2.flow = false) {k : Block} :
    ∀ {ibin : Nat}, k ∈ blocksFrom ibin L → (k.name, k.start, k.start + k.n) ∈ readerFrom ibin L := by
  induction L with
  | nil => intro ibin h; cases h
  | cons e L ih =>
    obtain ⟨n, c⟩ := e
    intro ibin h
    have hf : c.flow = false := hfl (n, c) (by simp)
    unfold blocksFrom at h
    unfold readerFrom
    rw [hf]
    rcases List.mem_cons.1 h with rfl | h
    · exact List.mem_cons_self ..
    · exact List.mem_cons_of_mem _ (ih (fun e he => hfl e (List.mem_cons_of_mem _ he)) h)

/-- the factor `_init_logk_scaled` applies to the variations of a cell -/
noncomputable def scaleOf (s : Yields.Shape) (npar : Nat) (rinit : Yields.Rates) (b p : Nat) : ℝ :=
  if s.logNormal ∨ npar = 0 then 1 else rinit.at b p

theorem scaled_logsnorm (s : Yields.Shape) (d : Yields.Dense) (npar : Nat) (rinit : Yields.Rates) (θ : Nat → ℝ) (b p : Nat) :
    (d.scaled s npar rinit).logsnorm s θ b p = scaleOf s npar rinit b p * d.logsnorm s θ b p := by
  unfold Yields.Dense.scaled scaleOf
  by_cases h : s.logNormal = true ∨ npar = 0
  · rw [if_pos h, if_pos h, one_mul]
  · rw [if_neg h, if_neg h]
    rw [logsnorm_eq, logsnorm_eq, mul_sum]
    refine sum_congr rfl fun j _ => ?_
    dsimp only
    split <;> ring

theorem scaled_norm (s : Yields.Shape) (d : Yields.Dense) (npar : Nat) (rinit : Yields.Rates) :
    (d.scaled s npar rinit).norm = d.norm := by
  unfold Yields.Dense.scaled
  split <;> rfl

theorem values_of {t : Tensor ℝ} {θ : String → ℝ} {j : Nat} {m : String} (h : t.systs[j]? = some m) :
    Spec.values t θ j = θ m := by
  unfold Spec.values
  rw [List.getD_eq_getElem?_getD, h]; rfl

theorem cell_logsnorm {t : Tensor ℝ} {norm' : Nat → Nat → ℝ} {logk' : Nat → Nat → Nat → Nat → ℝ} {x : Piece ℝ}
    {a' i ip ip' : Nat} (h : Cell' t norm' logk' x a' i ip ip') (h1 : t.systs.Nodup) (h2 : x.I.tensor.systs.Nodup)
    (h0 : x.norm (x.k.start + i) ip = 0 → ∀ j, j < x.I.tensor.systs.length → ∀ k, k < 2 →
      x.logk (x.k.start + i) ip k j = 0) (st : SystType) (θ : String → ℝ) :
    (⟨norm', logk'⟩ : Yields.Dense).logsnorm (Spec.shape st t) (Spec.values t θ) (a' + i) ip' =
      (⟨x.norm, x.logk⟩ : Yields.Dense).logsnorm (Spec.shape st x.I.tensor) (Spec.values x.I.tensor θ) (x.k.start + i) ip := by
  have hmask : ∀ (j : Nat) (m : String), x.I.tensor.systs[j]? = some m →
      maskNorm (x.norm (x.k.start + i) ip) (x.logk (x.k.start + i) ip 0 j) = x.logk (x.k.start + i) ip 0 j ∧
      maskNorm (x.norm (x.k.start + i) ip) (halfOf x.I.tensor x.logk (x.k.start + i) ip j) =
        halfOf x.I.tensor x.logk (x.k.start + i) ip j := by
    intro j m hj
    have hlt := (List.getElem?_eq_some_iff.1 hj).1
    unfold maskNorm
    by_cases hN : x.norm (x.k.start + i) ip = 0
    · rw [if_pos hN, if_pos hN]
      unfold halfOf
      rw [h0 hN j hlt 0 (by omega), h0 hN j hlt 1 (by omega)]
      exact ⟨rfl, by split <;> rfl⟩
    · rw [if_neg hN, if_neg hN]; exact ⟨rfl, rfl⟩
  rw [logsnorm_eq, logsnorm_eq]
  refine sum_names h1 h2 ?_ ?_ ?_
  · intro is j m his hj
    rw [values_of his, values_of hj]
    have e1 := h.avg j is m hj his
    have e2 := h.half j is m hj his
    rw [(hmask j m hj).1] at e1
    rw [(hmask j m hj).2] at e2
    show logk' (a' + i) ip' 0 is * θ m + (if t.symmetric then 0 else logk' (a' + i) ip' 1 is) * _ = _
    rw [e1, e2]
    rfl
  · intro is m his hm
    obtain ⟨e1, e2⟩ := h.new is m his hm
    show logk' (a' + i) ip' 0 is * _ + (if t.symmetric then 0 else logk' (a' + i) ip' 1 is) * _ = 0
    rw [e1, e2, ite_self]; ring
  · intro j m hj hm
    obtain ⟨e1, e2⟩ := h.gone j m hj hm
    show x.logk (x.k.start + i) ip 0 j * _ + halfOf x.I.tensor x.logk (x.k.start + i) ip j * _ = 0
    rw [e1, e2]; ring

theorem cell_yield {t : Tensor ℝ} {norm' : Nat → Nat → ℝ} {logk' : Nat → Nat → Nat → Nat → ℝ} {x : Piece ℝ}
    {a' i ip ip' : Nat} (h : Cell' t norm' logk' x a' i ip ip') (h1 : t.systs.Nodup) (h2 : x.I.tensor.systs.Nodup)
    {st : SystType} (hst : st ≠ .other)
    (h0 : st = .normal → x.norm (x.k.start + i) ip = 0 → ∀ j, j < x.I.tensor.systs.length → ∀ k, k < 2 →
      x.logk (x.k.start + i) ip k j = 0) (θ : String → ℝ) (npar : Nat) (rinit rinit' r r' : Yields.Rates)
    (hri : rinit'.at (a' + i) ip' = rinit.at (x.k.start + i) ip) (hr : r'.at (a' + i) ip' = r.at (x.k.start + i) ip) :
    Spec.yield st t norm' logk' npar rinit' r' θ (a' + i) ip' =
      Spec.yield st x.I.tensor x.norm x.logk npar rinit r θ (x.k.start + i) ip := by
  unfold Spec.yield Yields.Dense.yield
  dsimp only
  rw [scaled_logsnorm, scaled_logsnorm, scaled_norm, scaled_norm, hr]
  have hs : scaleOf (Spec.shape st t) npar rinit' (a' + i) ip' =
      scaleOf (Spec.shape st x.I.tensor) npar rinit (x.k.start + i) ip := by
    unfold scaleOf
    rw [hri]; rfl
  rw [hs]
  show (if (decide (st = .logNormal)) = true then _ else _) = (if (decide (st = .logNormal)) = true then _ else _)
  have hn : (⟨norm', logk'⟩ : Yields.Dense).norm (a' + i) ip' =
      (⟨x.norm, x.logk⟩ : Yields.Dense).norm (x.k.start + i) ip := h.norm
  by_cases hN : x.norm (x.k.start + i) ip = 0
  · by_cases hl : st = .logNormal
    · have hN' : (⟨x.norm, x.logk⟩ : Yields.Dense).norm (x.k.start + i) ip = 0 := hN
      rw [if_pos (by simpa using hl), if_pos (by simpa using hl), hn, hN']; ring
    · have hnrm : st = .normal := by cases st <;> simp_all
      rw [if_neg (by simpa using hl), if_neg (by simpa using hl), hn, cell_logsnorm h h1 h2 (h0 hnrm) st θ]
  · rw [cell_logsnorm h h1 h2 (fun e => absurd e hN) st θ, hn]

/-- C59 (inputs of the systematic type given on the command line, templates not negative, shared nuisances constrained
alike): if the merge tool writes a file, then every channel of every input appears in it with the same size and the same
data, every process of the input with the same templates and variances, and for all values of the nuisances (by name),
all rate factors and all bins the predicted yields per process and in total are those of the input.  Nuisances keep their
constraint. -/
theorem c59_yields_partial (close : Axis → Axis → Bool) (st : SystType) (hst : st ≠ .other)
    (iter : List String → List String) (hit : ∀ l, (iter l).Perm l) (Is : List (Input ℝ))
    (hty : ∀ I ∈ Is, I.systType = st) (hread : ∀ I ∈ Is, Spec.Readable I) (hag : Spec.agree Is) (t : Tensor ℝ)
    (h : mergedFile Yields.num close st Real.exp iter Is = .ok t) :
    ∃ norm' logk', t.body = .dense norm' logk' ∧ ∀ I ∈ Is, ∃ norm logk, I.tensor.body = .dense norm logk ∧
      (∀ m ∈ t.systs, m ∈ I.tensor.systs → (m ∈ t.noConstraint ↔ m ∈ I.tensor.noConstraint)) ∧
      ∀ name a b, (name, a, b) ∈ readerFrom 0 I.tensor.channelInfo →
      ∃ a', (name, a', a' + (b - a)) ∈ readerFrom 0 t.channelInfo ∧ ∀ i, i < b - a →
        t.dataObs (a' + i) = I.tensor.dataObs (a + i) ∧ t.dataVar (a' + i) = I.tensor.dataVar (a + i) ∧
        (∀ (ip : Nat) (p : String), I.tensor.procs[ip]? = some p → ∃ ip' : Nat, t.procs[ip']? = some p ∧
          norm' (a' + i) ip' = norm (a + i) ip ∧ t.sumw2 (a' + i) ip' = I.tensor.sumw2 (a + i) ip ∧
          ∀ (θ : String → ℝ) (npar : Nat) (rinit rinit' r r' : Yields.Rates),
            rinit'.at (a' + i) ip' = rinit.at (a + i) ip → r'.at (a' + i) ip' = r.at (a + i) ip →
            Spec.yield st t norm' logk' npar rinit' r' θ (a' + i) ip' =
              Spec.yield st I.tensor norm logk npar rinit r θ (a + i) ip) ∧
        ∀ (θ : String → ℝ) (npar : Nat) (rinit rinit' r r' : Yields.Rates),
          (∀ (ip ip' : Nat) (p : String), I.tensor.procs[ip]? = some p → t.procs[ip']? = some p →
            rinit'.at (a' + i) ip' = rinit.at (a + i) ip ∧ r'.at (a' + i) ip' = r.at (a + i) ip) →
          ∑ ip' ∈ range t.procs.length, Spec.yield st t norm' logk' npar rinit' r' θ (a' + i) ip' =
            ∑ ip ∈ range I.tensor.procs.length, Spec.yield st I.tensor norm logk npar rinit r θ (a + i) ip := by
  unfold mergedFile at h
  dsimp only at h
  set cfg : Cfg ℝ := ⟨Yields.num, false, st, false, false, close⟩ with hcfg
  have hsp : cfg.sparse = false := rfl
  cases hm : merge cfg Real.exp Is {} with
  | mk s res =>
  obtain ⟨s, hm, hw⟩ : ∃ s, merge cfg Real.exp Is {} = (s, .ok ()) ∧ (write cfg iter s).2 = .ok t := by
    cases res with
    | error e =>
      exfalso
      have : ((do merge cfg Real.exp Is; write cfg iter : M ℝ (Tensor ℝ)) {}).2 = .error e := by
        show (M.bind (merge cfg Real.exp Is) (fun _ => write cfg iter) {}).2 = _
        unfold M.bind
        rw [hm]
      rw [this] at h
      cases h
    | ok u =>
      refine ⟨s, hm, ?_⟩
      rw [← h]
      show _ = (M.bind (merge cfg Real.exp Is) (fun _ => write cfg iter) {}).2
      unfold M.bind
      rw [hm]
  have hun := merge_unmasked hm
  have hflow : ∀ I ∈ Is, ∀ e ∈ I.tensor.channelInfo, e.2.flow = false := fun I hI e he =>
    (hread I hI).flow e he (hun I hI e he)
  let U : String → Prop := fun m => ∃ I ∈ Is, m ∈ I.tensor.systs ∧ m ∈ I.tensor.noConstraint
  have hU : ∀ I ∈ Is, ∀ m ∈ I.tensor.systs, m ∈ I.tensor.noConstraint ↔ U m := fun I hI m hm' =>
    ⟨fun hc => ⟨I, hI, hm', hc⟩, fun ⟨J, hJ, h1, h2⟩ => hag J hJ I hI m h1 hm' h2⟩
  have hfine : ∀ I ∈ Is, ∀ x ∈ piecesOf I, Fine cfg Real.exp U x := by
    intro I hI x hx
    unfold piecesOf at hx
    cases hb : I.tensor.body with
    | sparse o => rw [hb] at hx; cases hx
    | dense norm logk =>
      rw [hb] at hx
      obtain ⟨k, hk, rfl⟩ := List.mem_map.1 hx
      refine ⟨fun v N hN => ?_, (hread I hI).procs, (hread I hI).systs, hU I hI, .inr fun ip hip i hi => ?_⟩
      · dsimp only
        rw [hty I hI]
        exact elem_roundtrip hst v N hN
      · exact (hread I hI).pos norm logk hb k.name k.start (k.start + k.n) (reader_of_block (hflow I hI) hk) ip hip i
          (by rw [Nat.add_sub_cancel_left]; exact hi)
  obtain ⟨hM, hdense⟩ := merge_ok hsp hfine hm
  obtain ⟨hpnd, hsnd, hcon, norm', logk', hbody, hpiece⟩ := merged_piece hsp hM hit hw
  refine ⟨norm', logk', hbody, fun I hI => ?_⟩
  obtain ⟨norm, logk, hb⟩ := hdense I hI
  refine ⟨norm, logk, hb, fun m hmt hmI => (hcon m hmt).trans (hU I hI m hmI).symm, fun name a b hR => ?_⟩
  obtain ⟨c, hc, hbc, hk⟩ := mem_blocks (hflow I hI) hR
  have hx : (⟨I, norm, logk, ⟨name, c, a, b - a⟩⟩ : Piece ℝ) ∈ Is.flatMap piecesOf := by
    refine List.mem_flatMap.2 ⟨I, hI, ?_⟩
    unfold piecesOf
    rw [hb]
    exact List.mem_map_of_mem (f := fun k : Block => (⟨I, norm, logk, k⟩ : Piece ℝ)) hk
  obtain ⟨a', hR', hdata, hproc, hcell, hother⟩ := hpiece _ hx (blocks_n hk) (hread I hI).systs
  dsimp only at hR' hdata hproc hcell hother
  have h0 : ∀ ip, ip < I.tensor.procs.length → ∀ i, i < b - a → st = .normal → norm (a + i) ip = 0 →
      ∀ j, j < I.tensor.systs.length → ∀ k, k < 2 → logk (a + i) ip k j = 0 := by
    intro ip hip i hi hn hN j hj k hk'
    exact (hread I hI).empty ((hty I hI).trans hn) norm logk hb name a b hR ip hip i hi hN j hj k hk'
  refine ⟨a', hR', fun i hi => ⟨(hdata i hi).1, (hdata i hi).2, fun ip p hp => ?_, ?_⟩⟩
  · obtain ⟨ip', hp'⟩ := hproc ip p hp
    have hC := hcell ip ip' p hp hp' (hread I hI).procs i hi
    refine ⟨ip', hp', hC.norm, hC.sumw2, fun θ npar rinit rinit' r r' h1 h2 => ?_⟩
    exact cell_yield hC hsnd (hread I hI).systs hst (h0 ip (List.getElem?_eq_some_iff.1 hp).1 i hi) θ npar rinit rinit' r r'
      h1 h2
  · intro θ npar rinit rinit' r r' hrr
    refine sum_names hpnd (hread I hI).procs ?_ ?_ ?_
    · intro ip' ip p hp' hp
      obtain ⟨h1, h2⟩ := hrr ip ip' p hp hp'
      exact cell_yield (hcell ip ip' p hp hp' (hread I hI).procs i hi) hsnd (hread I hI).systs hst
        (h0 ip (List.getElem?_eq_some_iff.1 hp).1 i hi) θ npar rinit rinit' r r' h1 h2
    · intro ip' p hp' hno
      obtain ⟨e1, e2⟩ := hother ip' p hp' hno i hi
      unfold Spec.yield Yields.Dense.yield
      dsimp only
      rw [scaled_logsnorm, scaled_norm, logsnorm_eq, sum_eq_zero]
      · have e1' : (⟨norm', logk'⟩ : Yields.Dense).norm (a' + i) ip' = 0 := e1
        rw [e1']
        split <;> ring
      · intro is his
        have his' : is < t.systs.length := mem_range.1 his
        show logk' (a' + i) ip' 0 is * _ + (if t.symmetric then 0 else logk' (a' + i) ip' 1 is) * _ = 0
        rw [e2 0 (by omega) is his', e2 1 (by omega) is his', ite_self]; ring
    · intro ip p hp hno
      obtain ⟨ip', hp'⟩ := hproc ip p hp
      exact absurd (List.mem_of_getElem? hp') hno

/-! ### Files of the writer can be merged -/

section
variable {V : Type} [Field V] [LinearOrder V]

theorem flow_run (cfg : Cfg V) (ops : List (Op V)) (hf : Spec.freshNames cfg {} ops) :
    ∀ e ∈ (run cfg ops).channels, e.2.masked = false → e.2.flow = false := by
  have step1 : ∀ (op : Op V) (s : State V), LayInv s → (∀ e ∈ s.channels, e.2.masked = false → e.2.flow = false) →
      (∀ chan, Spec.addsChannel s chan op → s.channels.has chan = false) →
      ∀ e ∈ (step cfg op s).1.channels, e.2.masked = false → e.2.flow = false := by
    intro op s hl hs hf
    have key : ∀ {m : M V Unit}, Keeps (fun s : State V => s.channels) m →
        ∀ e ∈ (m s).1.channels, e.2.masked = false → e.2.flow = false := fun hm => by
      have : (fun s : State V => s.channels) _ = _ := hm.run s
      dsimp only at this
      rw [this]; exact hs
    have kc : ∀ {m : M V Unit}, Keeps core m → Keeps (fun s : State V => s.channels) m := fun hm =>
      keeps_of_core hm _ fun s t e => congrArg (fun c : Core V => c.channels) e
    cases op with
    | dataCov c => exact key ⟨fun _ => rfl⟩
    | pseudo h name c => exact key (keeps_addPseudo _ (fun _ _ _ => rfl) ..)
    | data h c vars => exact key (keeps_addData _ (fun _ _ _ => rfl) ..)
    | process h name c sig vars => exact key (keeps_addProcess _ (fun _ _ _ _ _ _ _ => rfl) ..)
    | syst x name proc c k m sy t d o => exact key (kc (keeps_addSystematic ..))
    | normSyst name procs c u t sy o => exact key (kc (keeps_addNormSystematic ..))
    | write it => exact key (Keeps.bind (keeps_write _ (fun _ _ => rfl) ..) fun _ => Keeps.pure _)
    | channel axes nm m f =>
      simp only [step, addChannel, raiseIf_bind]
      split
      · exact hs
      · rename_i hfm
        rw [read_bind]
        have hnew := hf _ rfl
        intro e he
        replace he : e ∈ insertChannel s.channels (nm.getD s!"ch{s.channels.length}") ⟨axes, m, f⟩ := he
        rw [insertChannel_fresh _ _ _ (by rw [Dict.mem_keys_iff_has, hnew]; simp) hl.nodup] at he
        have hc : e ∈ s.channels ∨ e = (nm.getD s!"ch{s.channels.length}", ⟨axes, m, f⟩) := by
          split at he
          · rcases List.mem_append.1 he with he | he
            · exact .inl he
            · exact .inr (List.mem_singleton.1 he)
          · rcases List.mem_append.1 he with he | he
            · rcases List.mem_append.1 he with he | he
              · exact .inl (List.mem_filter.1 he).1
              · exact .inr (List.mem_singleton.1 he)
            · exact .inl (List.mem_filter.1 he).1
        rcases hc with hc | rfl
        · exact hs e hc
        · intro hm
          dsimp only at hm ⊢
          subst hm
          simpa using hfm
  have : ∀ (ops : List (Op V)) (s : State V), LayInv s → (∀ e ∈ s.channels, e.2.masked = false → e.2.flow = false) →
      Spec.freshNames cfg s ops → ∀ e ∈ (runOps cfg s ops).channels, e.2.masked = false → e.2.flow = false := by
    intro ops
    induction ops with
    | nil => exact fun s _ hs _ => hs
    | cons op ops ih => exact fun s hl hs h => ih _ (layInv_step cfg op s hl h.1) (step1 op s hl hs h.1) h.2
  exact this ops {} ⟨by simp, by simp, by simp [Dict.keys]⟩ (by simp) hf

/-- every stored template has its variances -/
theorem sumw2_run (cfg : Cfg V) (ops : List (Op V)) (c p : String) (n : Writer.Norm V)
    (h : Spec.at2 (run cfg ops).norm c p = some n) : ∃ w, Spec.at2 (run cfg ops).sumw2 c p = some w := by
  let I : State V → Prop := fun s => ∀ c p n, Spec.at2 s.norm c p = some n → ∃ w, Spec.at2 s.sumw2 c p = some w
  have step1 : ∀ (op : Op V) (s : State V), I s → I (step cfg op s).1 := by
    intro op s hs
    have key : ∀ {m : M V Unit}, Keeps (fun s : State V => (s.norm, s.sumw2)) m → I (m s).1 := fun hm => by
      have := hm.run s
      simp only [Prod.mk.injEq] at this
      intro c p n
      rw [this.1, this.2]; exact hs c p n
    have kc : ∀ {m : M V Unit}, Keeps core m → Keeps (fun s : State V => (s.norm, s.sumw2)) m := fun hm =>
      keeps_of_core hm _ fun s t e => congrArg (fun c : Core V => (c.norm, c.sumw2)) e
    cases op with
    | dataCov c => exact key ⟨fun _ => rfl⟩
    | pseudo h name c => exact key (keeps_addPseudo _ (fun _ _ _ => rfl) ..)
    | data h c vars => exact key (keeps_addData _ (fun _ _ _ => rfl) ..)
    | syst x name proc c k m sy t d o => exact key (kc (keeps_addSystematic ..))
    | normSyst name procs c u t sy o => exact key (kc (keeps_addNormSystematic ..))
    | write it => exact key (Keeps.bind (keeps_write _ (fun _ _ => rfl) ..) fun _ => Keeps.pure _)
    | channel axes nm m f =>
      simp only [step, addChannel, raiseIf_bind]
      split
      · exact hs
      · rw [read_bind]
        intro c p n hn
        replace hn : Spec.at2 (Dict.set s.norm (nm.getD s!"ch{s.channels.length}") []) c p = some n := hn
        show ∃ w, Spec.at2 (Dict.set s.sumw2 (nm.getD s!"ch{s.channels.length}") []) c p = some w
        rw [at2_of_set] at hn ⊢
        by_cases he : nm.getD s!"ch{s.channels.length}" = c
        · rw [if_pos he] at hn; cases hn
        · rw [if_neg he] at hn ⊢; exact hs c p n hn
    | process h name chan sig vars =>
      simp only [step]
      rcases addProcess_cases cfg h name chan sig vars s with
        ⟨s', e, e1, e2, _⟩ | ⟨ch, nc, wc, n, w, _, hn, _, hw, _, _, e1, e2, _⟩
      · rw [e]; intro c p n; rw [e1, e2]; exact hs c p n
      · intro c p n' hn'
        rw [e1, at2_of_set] at hn'
        rw [e2, at2_of_set]
        by_cases he : chan = c
        · subst he
          rw [if_pos rfl] at hn' ⊢
          by_cases hp : name = p
          · subst hp; exact ⟨w, Dict.get?_set_self ..⟩
          · rw [Dict.get?_set_ne _ _ hp] at hn' ⊢
            have := hs chan p n' (by unfold Spec.at2; rw [hn]; exact hn')
            unfold Spec.at2 at this
            rw [hw] at this; exact this
        · rw [if_neg he] at hn' ⊢; exact hs c p n' hn'
  have : ∀ (ops : List (Op V)) (s : State V), I s → I (runOps cfg s ops) := by
    intro ops
    induction ops with
    | nil => exact fun s hs => hs
    | cons op ops ih => exact fun s hs => ih _ (step1 op s hs)
  exact this ops {} (fun _ _ _ h => (nomatch h)) c p n h

theorem finites_nonneg : ∀ {l : List (FVal V)} {m : List V}, finites (l.map FVal.clip0) = some m → ∀ v ∈ m, 0 ≤ v := by
  intro l
  induction l with
  | nil =>
    intro m h
    cases h
    simp
  | cons x l ih =>
    intro m h
    unfold finites at h ih
    rw [List.map_cons, List.mapM_cons] at h
    cases hx : (FVal.clip0 x).toFin? with
    | none => rw [hx] at h; cases h
    | some v =>
      rw [hx] at h
      cases hl : (l.map FVal.clip0).mapM FVal.toFin? with
      | none => rw [hl] at h; cases h
      | some m' =>
        rw [hl] at h
        cases h
        have hv : 0 ≤ v := by
          cases x with
          | fin w => cases hx; exact le_max_right _ _
          | ninf => cases hx; exact le_refl _
          | pinf => cases hx
          | nan => cases hx
        intro y hy
        rcases List.mem_cons.1 hy with rfl | hy
        · exact hv
        · exact ih hl y hy

theorem elem_mem {l : List V} {i : Nat} : Spec.elem l i 0 = 0 ∨ Spec.elem l i 0 ∈ l := by
  unfold Spec.elem
  rw [List.getD_eq_getElem?_getD]
  cases h : l[if l.length = 1 then 0 else i]? with
  | none => exact .inl rfl
  | some v => exact .inr (List.mem_of_getElem? h)

/-- masked variations vanish where the template does -/
theorem elem_masked {n l m : List V} (h : zipB maskNorm n l = .ok m) (i : Nat) (h0 : Spec.elem n i 0 = 0) :
    Spec.elem m i 0 = 0 := by
  unfold zipB at h
  split at h
  · rename_i hlen
    cases h
    unfold Spec.elem at h0 ⊢
    rw [List.length_zipWith, ← hlen, Nat.min_self]
    generalize (if n.length = 1 then 0 else i) = k at h0
    rw [List.getD_eq_getElem?_getD] at h0 ⊢
    rw [List.getElem?_zipWith]
    cases hn : n[k]? with
    | none => rfl
    | some a =>
      cases hl : l[k]? with
      | none => rfl
      | some b =>
        rw [hn] at h0
        have : a = 0 := h0
        simp [maskNorm, this]
  · split at h
    · rename_i x _
      cases h
      have hx : x = 0 := h0
      rcases elem_mem (l := l.map (maskNorm x)) (i := i) with e | e
      · exact e
      · obtain ⟨y, _, hy⟩ := List.mem_map.1 e
        rw [← hy, hx]; simp [maskNorm]
    · rename_i y _ _
      cases h
      unfold Spec.elem at h0 ⊢
      rw [List.length_map]
      generalize (if n.length = 1 then 0 else i) = k at h0
      rw [List.getD_eq_getElem?_getD] at h0 ⊢
      rw [List.getElem?_map]
      cases hn : n[k]? with
      | none => rfl
      | some a =>
        rw [hn] at h0
        have : a = 0 := h0
        simp [maskNorm, this]
    · cases h

end

/-- C59: every dense file written without negative expectations and without a nuisance registered both with and without
constraint (channel names used once) meets the conditions `c59_yields_partial` asks of an input. -/
theorem c59_written_partial (cfg : Cfg ℝ) (hsp : cfg.sparse = false) (hneg : cfg.allowNeg = false) (ops : List (Op ℝ))
    (hf : Spec.freshNames cfg {} ops) (hc : Spec.consistent ops) (iter : List String → List String)
    (hit : ∀ l, (iter l).Perm l) (t : Tensor ℝ) (hw : (write cfg iter (run cfg ops)).2 = .ok t) :
    Spec.Readable ⟨t, cfg.systType⟩ := by
  have hT : Tables (fun n => ∃ l, n = .dense l ∧ ∀ v ∈ l, 0 ≤ v)
      (fun n e => ∃ l m, n = .dense l ∧ e = .dense m ∧ ∀ i, Spec.elem l i 0 = 0 → Spec.elem m i 0 = 0) (run cfg ops) := by
    refine tables_run ?_ ops ?_
    · rintro n lk e ⟨l, rfl, _⟩ he
      have hwrap : wrap (Norm.idx (.dense l : Writer.Norm ℝ)) lk = .arr lk := rfl
      rw [hwrap] at he
      obtain ⟨m, hm, rfl⟩ := bookedLogk_dense hsp he
      exact ⟨l, m, rfl, rfl, elem_masked hm⟩
    · intro h name chan sig vars _ n flow hn
      unfold procNorm at hn
      rw [hsp, hneg] at hn
      simp only [Bool.false_and, Bool.false_eq_true, if_false] at hn
      split at hn
      · cases hn
      · rename_i l hl
        cases hn
        exact ⟨l, rfl, finites_nonneg hl⟩
  have hcsr : Spec.csrInRange (run cfg ops) := by
    intro chan nc proc size l h1 h2
    obtain ⟨l', hl', _⟩ := hT.norm chan proc (.csr size l) (by unfold Spec.at2; rw [h1, Option.bind_some, h2])
    cases hl'
  obtain ⟨c1, c2, c3, c4, c5, c6⟩ := c02_layout_partial cfg ops hf iter t hw hcsr
  obtain ⟨norm', logk', hbody, hlogk⟩ := c07_dense_written cfg hsp ops hf iter t hw
  obtain ⟨bkgs, -, hpnd, -⟩ := c03_order cfg ops iter t hw
  obtain ⟨hsnd, -⟩ := c05_weights_partial cfg ops iter hit t hw hc
  obtain ⟨lay, cells, W⟩ := write_ok hw
  have hcell : ∀ name a b, (name, a, b) ∈ readerFrom 0 t.channelInfo → ∀ (ip : Nat) (p : String), t.procs[ip]? = some p →
      ∀ i, i < b - a → (Spec.at2 (run cfg ops).norm name p = none ∧ norm' (a + i) ip = 0) ∨
        ∃ l, Spec.at2 (run cfg ops).norm name p = some (.dense l) ∧ (∀ v ∈ l, 0 ≤ v) ∧
          norm' (a + i) ip = Spec.elem l i 0 := by
    intro name a b hR ip p hp i hi
    have h4 := c4 _ _ _ hR ip p hp i hi
    have hn := c6 norm' logk' hbody
    cases hT2 : Spec.at2 (run cfg ops).norm name p with
    | none =>
      left
      have : Spec.template (run cfg ops) name p = none := by
        cases hx : Spec.template (run cfg ops) name p with
        | none => rfl
        | some y =>
          obtain ⟨nc, wc, e1, e2, e3, e4⟩ := template_eq_some.1 hx
          unfold Spec.at2 at hT2
          rw [e1, Option.bind_some, e3] at hT2
          cases hT2
      rw [this] at h4
      exact ⟨rfl, by rw [hn]; exact h4.1⟩
    | some n =>
      right
      obtain ⟨l, rfl, hl⟩ := hT.norm name p n hT2
      obtain ⟨w, hw2⟩ := sumw2_run cfg ops name p _ hT2
      refine ⟨l, rfl, hl, ?_⟩
      have hx : Spec.template (run cfg ops) name p = some (.dense l, w) := by
        unfold Spec.at2 at hT2 hw2
        obtain ⟨nc, e1, e2⟩ := Option.bind_eq_some_iff.1 hT2
        obtain ⟨wc, e3, e4⟩ := Option.bind_eq_some_iff.1 hw2
        exact template_eq_some.2 ⟨nc, wc, e1, e3, e2, e4⟩
      rw [hx] at h4
      rw [hn]; exact h4.1
  refine ⟨hpnd, hsnd, ?_, ?_, ?_⟩
  · show ∀ e ∈ t.channelInfo, _
    rw [W.channelInfo]
    exact flow_run cfg ops hf
  · intro norm logk hb name a b hR ip hip i hi
    rw [hbody] at hb
    cases hb
    rcases hcell name a b hR ip _ (List.getElem?_eq_getElem hip) i hi with ⟨_, e⟩ | ⟨l, _, hl, e⟩
    · rw [e]
    · rw [e]
      rcases elem_mem (l := l) (i := i) with e' | e'
      · rw [e']
      · exact hl _ e'
  · intro _ norm logk hb name a b hR ip hip i hi h0 j hj k hk
    replace hip : ip < t.procs.length := hip
    replace hj : j < t.systs.length := hj
    rw [hbody] at hb
    cases hb
    have hv := hlogk name a b hR ip _ (List.getElem?_eq_getElem hip) i hi j _ (List.getElem?_eq_getElem hj)
    have hval : ∀ half : Bool, logk' (a + i) ip (if half then 1 else 0) j = 0 := by
      intro half
      rw [hv half]
      cases hbv : Spec.bookedVar (run cfg ops) half name t.procs[ip] t.systs[j] with
      | none => rfl
      | some e =>
        dsimp only
        have hQ : ∃ n, Spec.at2 (run cfg ops).norm name t.procs[ip] = some n ∧
            ∃ l m, n = .dense l ∧ e = .dense m ∧ ∀ i, Spec.elem l i 0 = 0 → Spec.elem m i 0 = 0 := by
          unfold Spec.bookedVar at hbv
          split at hbv
          · cases hbv
          · rename_i e' he'
            cases half with
            | true => exact hT.half _ _ _ _ hbv
            | false => cases hbv; exact hT.avg _ _ _ _ he'
        obtain ⟨n, hn, l, m, rfl, rfl, hlm⟩ := hQ
        rcases hcell name a b hR ip _ (List.getElem?_eq_getElem hip) i hi with ⟨e, _⟩ | ⟨l', e, _, e'⟩
        · rw [hn] at e; cases e
        · rw [hn] at e
          cases e
          exact hlm i (by rw [← e']; exact h0)
    have : k = 0 ∨ k = 1 := by omega
    rcases this with rfl | rfl
    · exact hval false
    · exact hval true

/-! ### Concrete tensors -/

open Lean Elab Tactic in
/-- `rfl` checked by the kernel only -/
local elab "kernel_rfl" : tactic => do (← getMainGoal).refl (check := false)

/-- a tensor with one channel of two bins, described by rational numbers -/
noncomputable def Ex.input (st : SystType) (chan : String) (procs systs nc : List String) (sym : Bool) (norm var : Nat → Nat → ℝ)
    (logk : Nat → Nat → Nat → Nat → ℚ) : Input ℝ where
  systType := st
  tensor := {
    procs := procs
    signals := procs.filter (· == "p")
    systs := systs
    noConstraint := nc
    groups := []
    noiIdxs := []
    pseudoNames := []
    weights := []
    channelInfo := [(chan, ⟨[Writer.Ex.ax 2], false, false⟩)]
    symmetric := sym
    nbins := 2
    nbinsfull := 2
    dataObs := fun _ => .fin 5
    dataVar := fun _ => .fin 5
    pseudo := fun _ _ => .fin 0
    sumw := norm
    sumw2 := var
    body := .dense norm fun b p k j => (logk b p k j : ℝ)
    fullCov := none }

def Ex.activeQ (sym : Bool) (logk : Nat → Nat → Nat → Nat → ℚ) (k : Block) (p j : Nat) : Bool :=
  (List.range k.n).any fun i =>
    if sym then decide (logk (k.start + i) p 0 j ≠ 0)
    else decide (logk (k.start + i) p 0 j ≠ 0) || decide (logk (k.start + i) p 1 j ≠ 0)

theorem Ex.active_cast (t : Tensor ℝ) (logk : Nat → Nat → Nat → Nat → ℚ) (k : Block) (p j : Nat) :
    active t (fun b p k j => (logk b p k j : ℝ)) k p j = Ex.activeQ t.symmetric logk k p j := by
  unfold active Ex.activeQ varies
  simp


theorem Ex.flat_nominal (t : Tensor ℝ) (norm : Nat → Nat → ℝ) (k : Block) (p : Nat) (flow : Bool)
    (h : ∀ b p, 0 ≤ t.sumw2 b p) :
    (nominal t norm k p).flatVars flow = .ok (Merge.slice k fun b => .fin (t.sumw2 b p)) := by
  unfold HIn.flatVars nominal histOf
  dsimp only
  rw [if_neg]
  simp [Merge.slice, FVal.neg, h]

theorem Ex.flat_data (t : Tensor ℝ) (k : Block) (flow : Bool)
    (h : ∀ b, (t.dataVar b).neg = false) :
    (dataHist t k).flatVars flow = .ok (Merge.slice k t.dataVar) := by
  unfold HIn.flatVars dataHist histOf
  dsimp only
  rw [if_neg]
  simp [Merge.slice, h]


theorem Ex.five : (FVal.fin 5 : FVal ℝ).neg = false := by simp [FVal.neg]

/-- templates of the examples -/
noncomputable def Ex.norm (b p : Nat) : ℝ := ((b + p + 1 : ℕ) : ℝ)

theorem Ex.norm_nonneg (b p : Nat) : 0 ≤ Ex.norm b p := Nat.cast_nonneg _

noncomputable def Ex.I1 := Ex.input .normal "a" ["p", "q"] ["m", "n"] [] true Ex.norm Ex.norm
  (fun b p k j => if p = 0 ∧ j = 0 ∧ k = 0 then b + 1 else 0)
noncomputable def Ex.I2 := Ex.input .normal "b" ["q", "r"] ["m", "u"] ["u"] false Ex.norm Ex.norm
  (fun b _ k j => if j = 0 then b + 1 else if k = 1 then 3 else 2)

/-- the part of a merged file that the examples look at -/
noncomputable def Ex.view (t : Tensor ℝ) : List String × List String × List String × Option ℝ :=
  (t.procs, t.systs, t.noConstraint, match t.body with
    | .dense norm _ => some (norm 0 0)
    | .sparse _ => none)

noncomputable def Ex.file (st : SystType) (Is : List (Input ℝ)) : Res (Tensor ℝ) :=
  mergedFile Yields.num (fun a b => decide (a = b)) st Real.exp id Is

theorem Ex.merged : ∃ t, Ex.file .normal [Ex.I1, Ex.I2] = .ok t ∧
    Ex.view t = (["p", "q", "r"], ["u", "m"], ["u"], some (max (Ex.norm 0 0) 0)) := by
  refine written_of (f := Ex.view) ?_
  unfold Ex.file mergedFile merge Ex.I1 Ex.I2
  simp only [forEach, mergeInput, Ex.input, blocksFrom, mergeBlock, systOps, Ex.active_cast, nominalOps, List.zipIdx,
    List.map, step, addProcess, procSumw2, addData, Option.getD_none, Ex.flat_nominal, Ex.flat_data, Ex.norm_nonneg,
    implies_true, Ex.five]
  kernel_rfl

theorem Ex.readable (st : SystType) (chan : String) (procs systs nc : List String) (sym : Bool) (norm var : Nat → Nat → ℝ)
    (logk : Nat → Nat → Nat → Nat → ℚ) (hp : procs.Nodup) (hs : systs.Nodup) (hn : ∀ b p, 0 < norm b p) :
    Spec.Readable (Ex.input st chan procs systs nc sym norm var logk) := by
  refine ⟨hp, hs, ?_, ?_, ?_⟩
  · intro e he _
    simp only [Ex.input, List.mem_singleton] at he
    rw [he]
  · intro n l hb name a b _ ip _ i _
    cases hb
    exact (hn _ _).le
  · intro _ n l hb name a b _ ip _ i _ h0
    cases hb
    exact absurd h0 (hn _ _).ne'

theorem Ex.norm_pos (b p : Nat) : 0 < Ex.norm b p := Nat.cast_pos.2 (Nat.succ_pos _)

theorem Ex.readable1 : Spec.Readable Ex.I1 := Ex.readable _ _ _ _ _ _ _ _ _ (by decide) (by decide) Ex.norm_pos
theorem Ex.readable2 : Spec.Readable Ex.I2 := Ex.readable _ _ _ _ _ _ _ _ _ (by decide) (by decide) Ex.norm_pos

/-- two inputs with a common process and a common nuisance, one symmetric and one not, meet the hypotheses of
`c59_yields_partial`; the merged tensor has the union of processes and of the nuisances that have an effect -/
example : (∀ I ∈ [Ex.I1, Ex.I2], I.systType = .normal) ∧ (∀ I ∈ [Ex.I1, Ex.I2], Spec.Readable I) ∧
    Spec.agree [Ex.I1, Ex.I2] ∧ ∃ t, mergedFile Yields.num (fun a b => decide (a = b)) .normal Real.exp id [Ex.I1, Ex.I2] =
      .ok t ∧ t.procs = ["p", "q", "r"] ∧ t.systs = ["u", "m"] := by
  refine ⟨by simp [Ex.I1, Ex.I2, Ex.input], ?_, ?_, ?_⟩
  · intro I hI
    simp only [List.mem_cons, List.not_mem_nil, or_false] at hI
    rcases hI with rfl | rfl
    · exact Ex.readable1
    · exact Ex.readable2
  · intro I hI J hJ m
    simp only [List.mem_cons, List.not_mem_nil, or_false] at hI hJ
    rcases hI with rfl | rfl <;> rcases hJ with rfl | rfl <;> simp [Ex.I1, Ex.I2, Ex.input]
    rintro (rfl | rfl) <;> decide
  · obtain ⟨t, ht, hv⟩ := Ex.merged
    exact ⟨t, ht, congrArg (·.1) hv, congrArg (·.2.1) hv⟩

/-- a channel, a process and an asymmetric nuisance -/
noncomputable def Ex.ops : List (Op ℝ) :=
  [.channel [Writer.Ex.ax 2] (some "a") false false,
    .process (nominal Ex.I1.tensor Ex.norm ⟨"a", ⟨[Writer.Ex.ax 2], false, false⟩, 0, 2⟩ 0) "p" "a" true none,
    .data (dataHist Ex.I1.tensor ⟨"a", ⟨[Writer.Ex.ax 2], false, false⟩, 0, 2⟩) "a" none,
    .normSyst "m" ["p"] "a" [.list [2, 3]] false .conservative {},
    .syst (.pair (.array [2] [.fin 2, .fin 3]) (.array [2] [.fin 1, .fin 1])) "n" "p" "a" 1 true .none false false {}]

noncomputable def Ex.cfg : Cfg ℝ := ⟨Yields.num, false, .normal, false, false, fun a b => decide (a = b)⟩

/-- the hypotheses of `c59_written_partial` are met -/
example : Spec.freshNames Ex.cfg {} Ex.ops ∧ Spec.consistent Ex.ops ∧
    ∃ t, (write Ex.cfg id (run Ex.cfg Ex.ops)).2 = .ok t ∧
      Ex.view t = (["p"], ["m", "n"], [], some (max (Ex.norm 0 0) 0)) := by
  refine ⟨?_, ?_, written_of (f := Ex.view) ?_⟩
  · simp only [Ex.ops, Spec.freshNames, Spec.addsChannel, Option.getD_some, forall_eq', false_imp_iff, implies_true, and_true]
    rfl
  · intro b b' h1 h2 h3
    simp [Spec.asked, Ex.ops, Spec.asks] at h1 h2
    rcases h1 with rfl | rfl <;> rcases h2 with rfl | rfl <;> simp
  · unfold Ex.ops Ex.I1 run Ex.cfg
    simp only [runOps, Ex.input, step, addProcess, procSumw2, addData, Option.getD_none, Ex.flat_nominal, Ex.flat_data,
      Ex.norm_nonneg, implies_true, Ex.five]
    kernel_rfl

/-! ### Where the merge does not preserve the model -/

/-- a tensor with one channel, one process and one nuisance -/
noncomputable def Ex.one (nc : List String) (chan : String) (norm : Nat → Nat → ℝ) : Input ℝ :=
  Ex.input .normal chan ["p"] ["m"] nc true norm Ex.norm fun _ _ _ _ => 1

/-- the rate factor 1 -/
noncomputable def Ex.rate : Yields.Rates := ⟨1, fun _ _ => 1⟩

theorem Ex.view_eq {t : Tensor ℝ} {ps ss nc : List String} {v : ℝ} (h : Ex.view t = (ps, ss, nc, some v)) :
    t.procs = ps ∧ t.systs = ss ∧ t.noConstraint = nc ∧ ∃ norm logk, t.body = .dense norm logk ∧ norm 0 0 = v := by
  unfold Ex.view at h
  simp only [Prod.mk.injEq] at h
  refine ⟨h.1, h.2.1, h.2.2.1, ?_⟩
  have h4 := h.2.2.2
  cases hb : t.body with
  | sparse o => rw [hb] at h4; cases h4
  | dense n l => rw [hb] at h4; exact ⟨n, l, rfl, Option.some.inj h4⟩

/-- The code violates C59 when a tensor with additive variations is merged with the default systematic type
(merge_inputs.py:49-53, 125): the written variations are those of the logarithm, and the predicted yield changes. -/
theorem c59_type_violated : ∃ (I : Input ℝ) (t : Tensor ℝ) (norm norm' : Nat → Nat → ℝ)
    (logk logk' : Nat → Nat → Nat → Nat → ℝ), Spec.Readable I ∧
    mergedFile Yields.num (fun a b => decide (a = b)) .logNormal Real.exp id [I] = .ok t ∧
    I.tensor.procs = ["p"] ∧ t.procs = ["p"] ∧ I.tensor.body = .dense norm logk ∧ t.body = .dense norm' logk' ∧
    Spec.yield I.systType I.tensor norm logk 0 Ex.rate Ex.rate (fun _ => -1) 0 0 = 0 ∧
    0 < Spec.yield .logNormal t norm' logk' 0 Ex.rate Ex.rate (fun _ => -1) 0 0 := by
  obtain ⟨t, ht, hv⟩ : ∃ t, Ex.file .logNormal [Ex.one [] "a" Ex.norm] = .ok t ∧
      Ex.view t = (["p"], ["m"], [], some (max (Ex.norm 0 0) 0)) := by
    refine written_of (f := Ex.view) ?_
    unfold Ex.file mergedFile merge Ex.one
    simp only [forEach, mergeInput, Ex.input, blocksFrom, mergeBlock, systOps, Ex.active_cast, nominalOps, List.zipIdx,
      List.map, step, addProcess, procSumw2, addData, Option.getD_none, Ex.flat_nominal, Ex.flat_data, Ex.norm_nonneg,
      implies_true, Ex.five]
    kernel_rfl
  obtain ⟨h1, h2, -, norm', logk', hb, hn⟩ := Ex.view_eq hv
  refine ⟨_, t, Ex.norm, norm', fun _ _ _ _ => ((1 : ℚ) : ℝ), logk', Ex.readable _ _ _ _ _ _ _ _ _ (by decide) (by decide)
    Ex.norm_pos, ht, rfl, h1, rfl, hb, ?_, ?_⟩
  · unfold Spec.yield Yields.Dense.yield
    dsimp only
    rw [scaled_logsnorm, scaled_norm, logsnorm_eq]
    simp [Spec.shape, Ex.input, Spec.values, scaleOf, Ex.norm, Ex.rate, Yields.Rates.at]
  · unfold Spec.yield Yields.Dense.yield
    dsimp only
    rw [scaled_logsnorm, scaled_norm]
    simp only [Spec.shape, decide_true, if_true]
    have : norm' 0 0 = 1 := by rw [hn]; simp [Ex.norm]
    rw [this]
    simp [Ex.rate, Yields.Rates.at, Real.exp_pos]

/-- The code violates C59 for negative templates: the merge tool does not pass on `allow_negative_expectation`
(merge_inputs.py:125), so that a negative template is written as zero. -/
theorem c59_negative_violated : ∃ (I : Input ℝ) (t : Tensor ℝ) (norm norm' : Nat → Nat → ℝ)
    (logk logk' : Nat → Nat → Nat → Nat → ℝ),
    mergedFile Yields.num (fun a b => decide (a = b)) I.systType Real.exp id [I] = .ok t ∧
    I.tensor.procs = ["p"] ∧ t.procs = ["p"] ∧ I.tensor.body = .dense norm logk ∧ t.body = .dense norm' logk' ∧
    norm 0 0 = -1 ∧ norm' 0 0 = 0 := by
  obtain ⟨t, ht, hv⟩ : ∃ t, Ex.file .normal [Ex.one [] "a" fun _ _ => -1] = .ok t ∧
      Ex.view t = (["p"], ["m"], [], some (max (-1) 0)) := by
    refine written_of (f := Ex.view) ?_
    unfold Ex.file mergedFile merge Ex.one
    simp only [forEach, mergeInput, Ex.input, blocksFrom, mergeBlock, systOps, Ex.active_cast, nominalOps, List.zipIdx,
      List.map, step, addProcess, procSumw2, addData, Option.getD_none, Ex.flat_nominal, Ex.flat_data, Ex.norm_nonneg,
      implies_true, Ex.five]
    kernel_rfl
  obtain ⟨h1, h2, -, norm', logk', hb, hn⟩ := Ex.view_eq hv
  exact ⟨Ex.one [] "a" fun _ _ => -1, t, fun _ _ => -1, norm', fun _ _ _ _ => ((1 : ℚ) : ℝ), logk', ht, rfl, h1, rfl, hb, rfl, by rw [hn]; simp⟩

/-- The code violates C59 when a nuisance is constrained in one input and unconstrained in another: the merged tensor has
it twice, once in each state (tensorwriter.py:1604-1633, 2258-2259). -/
theorem c59_constraint_violated : ∃ (I J : Input ℝ) (t : Tensor ℝ), Spec.Readable I ∧ Spec.Readable J ∧
    I.systType = .normal ∧ J.systType = .normal ∧ I.tensor.systs = ["m"] ∧ J.tensor.systs = ["m"] ∧
    mergedFile Yields.num (fun a b => decide (a = b)) .normal Real.exp id [I, J] = .ok t ∧
    t.systs = ["m", "m"] ∧ "m" ∈ t.noConstraint ∧ "m" ∉ I.tensor.noConstraint := by
  obtain ⟨t, ht, hv⟩ : ∃ t, Ex.file .normal [Ex.one [] "a" Ex.norm, Ex.one ["m"] "b" Ex.norm] = .ok t ∧
      Ex.view t = (["p"], ["m", "m"], ["m"], some (max (Ex.norm 0 0) 0)) := by
    refine written_of (f := Ex.view) ?_
    unfold Ex.file mergedFile merge Ex.one
    simp only [forEach, mergeInput, Ex.input, blocksFrom, mergeBlock, systOps, Ex.active_cast, nominalOps, List.zipIdx,
      List.map, step, addProcess, procSumw2, addData, Option.getD_none, Ex.flat_nominal, Ex.flat_data, Ex.norm_nonneg,
      implies_true, Ex.five]
    kernel_rfl
  obtain ⟨h1, h2, h3, -⟩ := Ex.view_eq hv
  refine ⟨_, _, t, Ex.readable _ _ _ _ _ _ _ _ _ (by decide) (by decide) Ex.norm_pos, Ex.readable _ _ _ _ _ _ _ _ _
    (by decide) (by decide) Ex.norm_pos, rfl, rfl, rfl, rfl, ht, h2, ?_, ?_⟩
  · rw [h3]; simp
  · simp [Ex.input]

/-- sparse tensors cannot be merged (debugdata.py:9-10) -/
theorem c59_sparse_raises {V : Type} [Field V] [LinearOrder V] (num : Num V) (close : Axis → Axis → Bool) (st : SystType)
    (exp : V → V) (iter : List String → List String) (I : Input V) (Is : List (Input V)) (o : SparseOut V)
    (h : I.tensor.body = .sparse o) : mergedFile num close st exp iter (I :: Is) = .error .notImpl := by
  unfold mergedFile merge
  simp only [forEach, mergeInput, h]
  rfl

end Verif.Merge
