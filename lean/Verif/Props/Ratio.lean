import Verif.Props.Select
import Mathlib.Algebra.Field.Basic
import Mathlib.Algebra.BigOperators.Ring.List
import Mathlib.Tactic.FieldSimp
import Mathlib.Tactic.Ring

/-
C52: ratios, normalised ratios, asymmetries and differences of selected bins (rabbit/mappings/ratio.py).

Specification: `N` and `D` are the selections of C51 of the two channels, on the same grid.
-/

namespace Verif.Mappings

open Verif.ABCD Verif.Grid

variable {V : Type}

section select

variable [LinearOrder V] [AddCommMonoid V] [Div V] (inp : InData V) (ch : String) (ps : List String) (s : Sels V)
  (c : Chan V) (hc : inp.chans.get? ch = some c) (hg : Good s c) (nb : Nat) (hnb : c.start + c.shape.prod ≤ nb)

include hc hg hnb in
/-- the selection of a term -/
theorem term_select (m : Term V) (hm : termInit inp ch ps s = .ok m) (obs : Tensor V)
    (hobs : Spec.Obs obs nb inp.procs.length) (norm : Bool) :
    ∃ t, m.select obs norm true = .ok t ∧ t.shape = Spec.outSizes s c ∧
      ∀ i ∈ grid (Spec.outSizes s c), t.val i =
        if norm then Spec.selected s c (Spec.content obs (Spec.procSel inp.procs ps)) i /
          ((grid (Spec.outSizes s c)).map (Spec.selected s c (Spec.content obs (Spec.procSel inp.procs ps)))).sum
        else Spec.selected s c (Spec.content obs (Spec.procSel inp.procs ps)) i := by
  obtain ⟨hb, hp, hps, hcore⟩ := select_core inp ch ps s c hc hg m hm
  obtain ⟨v, hv, hvs, hvv⟩ := channel_inclusive m obs nb inp.procs.length hobs (by rw [hb.stop, hb.start, hb.shape])
    (by rw [hb.stop]; exact hnb) (by rw [hp]; exact idxsOf_lt)
  rw [hb.shape] at hvs hvv
  obtain ⟨t, h1, h2, h3⟩ := hcore obs true v [] hv (by rw [hvs, List.append_nil])
  rw [List.append_nil, sizes_eq hg hb] at h2
  rw [sizes_eq hg hb] at h3
  have hval : ∀ i ∈ grid (Spec.outSizes s c),
      t.val i = Spec.selected s c (Spec.content obs (Spec.procSel inp.procs ps)) i := by
    intro i hi
    have := h3 i hi [] (by simp [grid])
    rw [List.append_nil] at this
    rw [this]
    unfold Spec.selected
    rw [shape_noflow hg.flow] at hvv ⊢
    congr 1
    apply List.map_congr_left
    intro j hj
    rw [List.append_nil, hvv j (List.mem_filter.1 hj).1, hb.start, hp, procSel_eq _ _ hps]
  cases norm with
  | false => exact ⟨t, h1, h2, by simpa using hval⟩
  | true =>
    have htot : t.total = ((grid (Spec.outSizes s c)).map
        (Spec.selected s c (Spec.content obs (Spec.procSel inp.procs ps)))).sum := by
      unfold Tensor.total Tensor.flat
      rw [h2]
      exact congrArg _ (List.map_congr_left hval)
    refine ⟨t.divBy t.total, ?_, h2, ?_⟩
    · have : m.select obs true true = (m.select obs false true).map fun t => t.divBy t.total := by
        unfold Term.select
        cases m.channel obs true with
        | error e => rfl
        | ok v =>
          dsimp only
          cases (if m.selections = [] then (.ok v : Res (Tensor V)) else v.index m.selections) with
          | error e => rfl
          | ok v =>
            dsimp only
            cases segmentAll v m.segments with
            | error e => rfl
            | ok v => rfl
      rw [this, h1]
      rfl
    · intro i hi
      simp only [if_true, Tensor.divBy]
      rw [hval i hi, htot]

end select

section main

variable (inp : InData V) (nch dch : String) (nps dps : List String) (ns ds : Sels V)
  (nc dc : Chan V) (hnc : inp.chans.get? nch = some nc) (hdc : inp.chans.get? dch = some dc)
  (nb : Nat) (hnb : nc.start + nc.shape.prod ≤ nb) (hdb : dc.start + dc.shape.prod ≤ nb)

namespace Spec

/-- numerator (or denominator) in bin `i` -/
def side [LinearOrder V] [AddMonoid V] (inp : InData V) (s : Sels V) (c : Chan V) (ps : List String) (obs : Tensor V)
    (i : List Nat) : V := selected s c (content obs (procSel inp.procs ps)) i

/-- sum of all selected bins -/
def sideTotal [LinearOrder V] [AddMonoid V] (inp : InData V) (s : Sels V) (c : Chan V) (ps : List String) (obs : Tensor V) : V :=
  ((grid (outSizes s c)).map (side inp s c ps obs)).sum

end Spec

include hnc hdc in
theorem ratioInit_spec [LinearOrder V] [AddCommMonoid V] (hgn : Good ns nc) (hgd : Good ds dc) (m : RatioM V)
    (hm : ratioInit inp nch dch nps dps ns ds = .ok m) :
    termInit inp nch nps ns = .ok m.num ∧ termInit inp dch dps ds = .ok m.den ∧ Spec.outSizes ns nc = Spec.outSizes ds dc := by
  let _ : Div V := ⟨fun a _ => a⟩
  unfold ratioInit at hm
  cases hn : termInit inp nch nps ns with
  | error e => rw [hn] at hm; exact nomatch hm
  | ok tn =>
    rw [hn] at hm
    dsimp only at hm
    cases hd : termInit inp dch dps ds with
    | error e => rw [hd] at hm; exact nomatch hm
    | ok td =>
      rw [hd] at hm
      dsimp only at hm
      split at hm
      · exact nomatch hm
      · rename_i hsz
        rw [not_not] at hsz
        cases hm
        have hbn := (select_core inp nch nps ns nc hnc hgn tn hn).1
        have hbd := (select_core inp dch dps ds dc hdc hgd td hd).1
        rw [sizes_eq hgn hbn, sizes_eq hgd hbd] at hsz
        exact ⟨rfl, rfl, hsz⟩

theorem map2_ok (f : V → V → V) {t u : Tensor V} (h : t.shape = u.shape) :
    Tensor.map2 f t u = .ok ⟨t.shape, fun i => f (t.val i) (u.val i)⟩ := if_pos h

include hnc hdc hnb hdb in
/-- C52.  Whenever the mapping is accepted, the two selections have the same bins and the result is, bin by bin: the
numerator over the denominator (`Ratio`), the normalised numerator over the normalised denominator (`Normratio`), the
difference over the sum (`Asymmetry`). -/
theorem c52_value [LinearOrder V] [Field V] (hgn : Good ns nc) (hgd : Good ds dc) (m : RatioM V)
    (hm : ratioInit inp nch dch nps dps ns ds = .ok m) (obs : Tensor V) (hobs : Spec.Obs obs nb inp.procs.length) :
    let N := Spec.side inp ns nc nps obs
    let D := Spec.side inp ds dc dps obs
    let tN := Spec.sideTotal inp ns nc nps obs
    let tD := Spec.sideTotal inp ds dc dps obs
    Spec.outSizes ns nc = Spec.outSizes ds dc ∧
    m.ratio obs = .ok ((grid (Spec.outSizes ns nc)).map fun i => N i / D i) ∧
    m.normratio obs = .ok ((grid (Spec.outSizes ns nc)).map fun i => (N i / tN) / (D i / tD)) ∧
    m.asymmetry obs = .ok ((grid (Spec.outSizes ns nc)).map fun i => (N i - D i) / (N i + D i)) := by
  obtain ⟨hn, hd, hsz⟩ := ratioInit_spec inp nch dch nps dps ns ds nc dc hnc hdc hgn hgd m hm
  obtain ⟨tn, hn1, hn2, hn3⟩ := term_select inp nch nps ns nc hnc hgn nb hnb m.num hn obs hobs false
  obtain ⟨td, hd1, hd2, hd3⟩ := term_select inp dch dps ds dc hdc hgd nb hdb m.den hd obs hobs false
  obtain ⟨un, kn1, kn2, kn3⟩ := term_select inp nch nps ns nc hnc hgn nb hnb m.num hn obs hobs true
  obtain ⟨ud, kd1, kd2, kd3⟩ := term_select inp dch dps ds dc hdc hgd nb hdb m.den hd obs hobs true
  rw [← hsz] at hd2 hd3 kd2 kd3
  refine ⟨hsz, ?_, ?_, ?_⟩
  · unfold RatioM.ratio RatioM.combine
    rw [hn1, hd1]
    dsimp only
    rw [map2_ok _ (hn2.trans hd2.symm)]
    dsimp only
    unfold Tensor.flat
    rw [hn2]
    congr 1
    apply List.map_congr_left
    intro i hi
    dsimp only
    rw [hn3 i hi, hd3 i hi]
    rfl
  · unfold RatioM.normratio RatioM.combine
    rw [kn1, kd1]
    dsimp only
    rw [map2_ok _ (kn2.trans kd2.symm)]
    dsimp only
    unfold Tensor.flat
    rw [kn2]
    congr 1
    apply List.map_congr_left
    intro i hi
    dsimp only
    rw [kn3 i hi, kd3 i hi]
    simp only [if_true, Spec.sideTotal, Spec.side, hsz]
    rfl
  · unfold RatioM.asymmetry RatioM.combine
    rw [hn1, hd1]
    dsimp only
    rw [map2_ok _ (hn2.trans hd2.symm), map2_ok _ (hn2.trans hd2.symm)]
    dsimp only
    rw [map2_ok (t := ⟨tn.shape, fun i => tn.val i - td.val i⟩) (u := ⟨tn.shape, fun i => tn.val i + td.val i⟩) _ rfl]
    dsimp only
    unfold Tensor.flat
    rw [hn2]
    congr 1
    apply List.map_congr_left
    intro i hi
    dsimp only
    rw [hn3 i hi, hd3 i hi]
    rfl

include hnc hdc hnb hdb in
/-- C52, `Difference`: the result is the difference of the NORMALISED histograms.  Missing: the difference of the
histograms themselves, which is what the documentation says (see `c52_difference_violated`). -/
theorem c52_difference_partial [LinearOrder V] [Field V] (hgn : Good ns nc) (hgd : Good ds dc) (m : RatioM V)
    (hm : ratioInit inp nch dch nps dps ns ds = .ok m) (obs : Tensor V) (hobs : Spec.Obs obs nb inp.procs.length) :
    m.difference obs = .ok ((grid (Spec.outSizes ns nc)).map fun i =>
      Spec.side inp ns nc nps obs i / Spec.sideTotal inp ns nc nps obs -
        Spec.side inp ds dc dps obs i / Spec.sideTotal inp ds dc dps obs) := by
  obtain ⟨hn, hd, hsz⟩ := ratioInit_spec inp nch dch nps dps ns ds nc dc hnc hdc hgn hgd m hm
  obtain ⟨un, kn1, kn2, kn3⟩ := term_select inp nch nps ns nc hnc hgn nb hnb m.num hn obs hobs true
  obtain ⟨ud, kd1, kd2, kd3⟩ := term_select inp dch dps ds dc hdc hgd nb hdb m.den hd obs hobs true
  rw [← hsz] at kd2 kd3
  unfold RatioM.difference RatioM.combine
  rw [kn1, kd1]
  dsimp only
  rw [map2_ok _ (kn2.trans kd2.symm)]
  dsimp only
  unfold Tensor.flat
  rw [kn2]
  congr 1
  apply List.map_congr_left
  intro i hi
  dsimp only
  rw [kn3 i hi, kd3 i hi]
  simp only [if_true, Spec.sideTotal, Spec.side, hsz]
  rfl

/-- all contents scaled by one factor -/
def scaled [Mul V] (k : V) (obs : Tensor V) : Tensor V := ⟨obs.shape, fun i => k * obs.val i⟩

theorem content_scaled [Semiring V] (k : V) (obs : Tensor V) (ps : List Nat) (b : Nat) :
    Spec.content (scaled k obs) ps b = k * Spec.content obs ps b := by
  unfold Spec.content
  show (if obs.shape.length = 1 then k * obs.val [b] else (ps.map fun q => k * obs.val [b, q]).sum) = _
  split
  · rfl
  · rw [List.sum_map_mul_left]

theorem side_scaled [LinearOrder V] [Semiring V] (s : Sels V) (c : Chan V) (ps : List String) (k : V) (obs : Tensor V)
    (i : List Nat) : Spec.side inp s c ps (scaled k obs) i = k * Spec.side inp s c ps obs i := by
  unfold Spec.side Spec.selected
  simp only [content_scaled]
  rw [List.sum_map_mul_left]

theorem sideTotal_scaled [LinearOrder V] [Semiring V] (s : Sels V) (c : Chan V) (ps : List String) (k : V) (obs : Tensor V) :
    Spec.sideTotal inp s c ps (scaled k obs) = k * Spec.sideTotal inp s c ps obs := by
  unfold Spec.sideTotal
  rw [show (Spec.side inp s c ps (scaled k obs)) = fun i => k * Spec.side inp s c ps obs i from
    funext fun i => side_scaled inp s c ps k obs i, List.sum_map_mul_left]

include hnc hdc hnb hdb in
/-- C52.  Rescaling all predicted contents by one factor changes neither ratios nor normalised ratios nor asymmetries. -/
theorem c52_scale [LinearOrder V] [Field V] (hgn : Good ns nc) (hgd : Good ds dc) (m : RatioM V)
    (hm : ratioInit inp nch dch nps dps ns ds = .ok m) (obs : Tensor V) (hobs : Spec.Obs obs nb inp.procs.length)
    (k : V) (hk : k ≠ 0) :
    m.ratio (scaled k obs) = m.ratio obs ∧ m.normratio (scaled k obs) = m.normratio obs ∧
      m.asymmetry (scaled k obs) = m.asymmetry obs := by
  obtain ⟨-, h1, h2, h3⟩ := c52_value inp nch dch nps dps ns ds nc dc hnc hdc nb hnb hdb hgn hgd m hm obs hobs
  obtain ⟨-, k1, k2, k3⟩ := c52_value inp nch dch nps dps ns ds nc dc hnc hdc nb hnb hdb hgn hgd m hm (scaled k obs) hobs
  rw [h1, h2, h3, k1, k2, k3]
  refine ⟨?_, ?_, ?_⟩
  · congr 1
    apply List.map_congr_left
    intro i _
    rw [side_scaled, side_scaled, mul_div_mul_left _ _ hk]
  · congr 1
    apply List.map_congr_left
    intro i _
    rw [side_scaled, side_scaled, sideTotal_scaled, sideTotal_scaled, mul_div_mul_left _ _ hk, mul_div_mul_left _ _ hk]
  · congr 1
    apply List.map_congr_left
    intro i _
    rw [side_scaled, side_scaled, ← mul_sub, ← mul_add, mul_div_mul_left _ _ hk]

include hnc hdc hnb hdb in
/-- C52.  Exchanging numerator and denominator is accepted, inverts the ratio and the normalised ratio, and changes the
sign of the asymmetry and of the difference. -/
theorem c52_exchange [LinearOrder V] [Field V] (hgn : Good ns nc) (hgd : Good ds dc) (m : RatioM V)
    (hm : ratioInit inp nch dch nps dps ns ds = .ok m) (obs : Tensor V) (hobs : Spec.Obs obs nb inp.procs.length) :
    ∃ m', ratioInit inp dch nch dps nps ds ns = .ok m' ∧
      m'.ratio obs = (m.ratio obs).map (List.map (·⁻¹)) ∧
      m'.normratio obs = (m.normratio obs).map (List.map (·⁻¹)) ∧
      m'.asymmetry obs = (m.asymmetry obs).map (List.map (- ·)) ∧
      m'.difference obs = (m.difference obs).map (List.map (- ·)) := by
  have hm' : ∃ m', ratioInit inp dch nch dps nps ds ns = .ok m' := by
    unfold ratioInit at hm ⊢
    cases hn : termInit inp nch nps ns with
    | error e => rw [hn] at hm; exact nomatch hm
    | ok tn =>
      rw [hn] at hm
      dsimp only at hm
      cases hd : termInit inp dch dps ds with
      | error e => rw [hd] at hm; exact nomatch hm
      | ok td =>
        rw [hd] at hm
        dsimp only at hm
        split at hm
        · exact nomatch hm
        · rename_i hsz
          rw [not_not] at hsz
          dsimp only
          rw [if_neg (by rw [not_not]; exact hsz.symm)]
          exact ⟨_, rfl⟩
  obtain ⟨m', hm'⟩ := hm'
  obtain ⟨hsz, h1, h2, h3⟩ := c52_value inp nch dch nps dps ns ds nc dc hnc hdc nb hnb hdb hgn hgd m hm obs hobs
  obtain ⟨-, k1, k2, k3⟩ := c52_value inp dch nch dps nps ds ns dc nc hdc hnc nb hdb hnb hgd hgn m' hm' obs hobs
  have h4 := c52_difference_partial inp nch dch nps dps ns ds nc dc hnc hdc nb hnb hdb hgn hgd m hm obs hobs
  have k4 := c52_difference_partial inp dch nch dps nps ds ns dc nc hdc hnc nb hdb hnb hgd hgn m' hm' obs hobs
  refine ⟨m', hm', ?_, ?_, ?_, ?_⟩
  · rw [h1, k1, ← hsz]
    simp only [Except.map, List.map_map]
    congr 1
    apply List.map_congr_left
    intro i _
    simp only [Function.comp, inv_div]
  · rw [h2, k2, ← hsz]
    simp only [Except.map, List.map_map]
    congr 1
    apply List.map_congr_left
    intro i _
    simp only [Function.comp, inv_div]
  · rw [h3, k3, ← hsz]
    simp only [Except.map, List.map_map]
    congr 1
    apply List.map_congr_left
    intro i _
    simp only [Function.comp]
    rw [← neg_div, neg_sub, add_comm]
  · rw [h4, k4, ← hsz]
    simp only [Except.map, List.map_map]
    congr 1
    apply List.map_congr_left
    intro i _
    simp only [Function.comp]
    rw [neg_sub]

include hnc hdc in
/-- C52.  The axes of the result: those of the numerator when both selections have the same axes, otherwise new axes with
the numbers of bins of the numerator. -/
theorem c52_labels [LinearOrder V] [AddCommMonoid V] (hgn : Good ns nc) (hgd : Good ds dc) (m : RatioM V)
    (hm : ratioInit inp nch dch nps dps ns ds = .ok m) :
    ∃ key info, m.info = [(key, info)] ∧ info.axes.map (·.size) = Spec.outSizes ns nc ∧ info.flow = false ∧
      key = (if nch = dch then nch else nch ++ "_" ++ dch) ∧
      ((m.num.axes.map fun a => (a.name, a.size, a.edges)) = (m.den.axes.map fun a => (a.name, a.size, a.edges)) →
        info.axes = m.num.axes) := by
  let _ : Div V := ⟨fun a _ => a⟩
  obtain ⟨hn, hd, hsz⟩ := ratioInit_spec inp nch dch nps dps ns ds nc dc hnc hdc hgn hgd m hm
  have hbn := (select_core inp nch nps ns nc hnc hgn m.num hn).1
  have hax : (ratioAxes m.num.axes m.den.axes).map (·.size) = Spec.outSizes ns nc := by
    rw [← sizes_eq hgn hbn]
    unfold ratioAxes
    split
    · rfl
    · rw [List.map_map]
      apply List.ext_getElem
      · simp
      · intro k h1 h2
        have hk : k < m.num.axes.length := by simpa using h1
        simp only [List.getElem_map, List.getElem_range, Function.comp, List.getD_eq_getElem?_getD,
          List.getElem?_eq_getElem hk, Option.getD_some]
  have hinfo : m.info = [(if nch = dch then nch else nch ++ "_" ++ dch, ⟨ratioAxes m.num.axes m.den.axes, false, []⟩)] := by
    unfold ratioInit at hm
    rw [hn, hd] at hm
    dsimp only at hm
    split at hm
    · exact nomatch hm
    · have : m.info = if nch = dch then
          [(nch, ⟨ratioAxes m.num.axes m.den.axes, (inp.chans.get? nch).any (·.flow), []⟩)]
          else [(nch ++ "_" ++ dch, ⟨ratioAxes m.num.axes m.den.axes, false, []⟩)] := by
        conv_lhs => rw [← Except.ok.inj hm]
      rw [this]
      split
      · rw [hnc]
        simp [hgn.flow]
      · rfl
  refine ⟨_, _, hinfo, hax, rfl, rfl, ?_⟩
  intro h
  exact if_pos h

/-- C52.  Selections with different numbers of bins are refused. -/
theorem c52_refuse [LinearOrder V] (tn td : Term V) (hn : termInit inp nch nps ns = .ok tn) (hd : termInit inp dch dps ds = .ok td)
    (h : tn.axes.map (·.size) ≠ td.axes.map (·.size)) : ratioInit inp nch dch nps dps ns ds = .error .runtime := by
  unfold ratioInit
  rw [hn, hd]
  exact if_pos h

end main

namespace Ex52

open Ex51

/-- bins of x = 0 over bins of x = 1 -/
def num : Sels ℚ := { sel := [("x", .slc (some 0) (some 1) none)], sum := ["x"] }
def den : Sels ℚ := { sel := [("x", .slc (some 1) (some 2) none)], sum := ["x"] }

def run (f : RatioM ℚ → Tensor ℚ → Res (List ℚ)) : Option (List ℚ) :=
  (ratioInit inp "ch" "ch" [] [] num den).toOption.bind fun m => (f m (ofList [100, 1, 2, 3, 4, 10, 20, 30, 50])).toOption

example : run (·.ratio) = some [1/10, 1/10, 1/10, 4/50] := by decide +kernel
example : run (·.asymmetry) = some [-9/11, -9/11, -9/11, -46/54] := by decide +kernel
example : run (·.normratio) = some [11/10, 11/10, 11/10, 44/50] := by decide +kernel

/-- the hypotheses are met -/
example : Good num chan := by
  refine ⟨rfl, ?_, by decide, by decide, by decide, ?_⟩
  · intro a ha
    simp only [chan, List.mem_cons, List.not_mem_nil, or_false] at ha
    rcases ha with rfl | rfl
    · refine ⟨rfl, ?_⟩; simp [axX]
    · refine ⟨rfl, ?_⟩; simp [axY]; norm_num
  · intro k s e st h
    simp only [num, Dict.get?] at h
    split at h
    · cases h
    · exact nomatch h

end Ex52

/-- C52 does not hold for `Difference`: "compute the difference of numerator and denominator" gives the difference of the
normalised histograms. -/
theorem c52_difference_violated :
    Ex52.run (·.difference) = some [1/10 - 10/110, 2/10 - 20/110, 3/10 - 30/110, 4/10 - 50/110] ∧
      Ex52.run (·.difference) ≠ some [1 - 10, 2 - 20, 3 - 30, 4 - 50] := by
  constructor <;> decide +kernel

end Verif.Mappings
