import Verif.Model.SatTest
import Verif.Props.Saturated
import Verif.Props.CompositeModel
import Verif.Lemmas.ExternalTerms
import Verif.Lemmas.Grid

/-! Lemmas for C72: the composite layout is the original layout with a block inserted. -/

namespace Verif.SatTest

open Verif.ParamModels Verif.AxisModels Verif.ABCD Verif.Grid

/-- a block inserted at position `n` -/
def ins {α : Type} (l : List α) (n : Nat) (b : List α) : List α := l.take n ++ b ++ l.drop n

theorem ins_getElem? {α : Type} (l : List α) (n : Nat) (b : List α) (h : n ≤ l.length) (i : Nat) :
    (ins l n b)[if i < n then i else i + b.length]? = l[i]? := by
  unfold ins
  split_ifs with hi
  · rw [List.append_assoc, List.getElem?_append_left (by simp; omega), List.getElem?_take, if_pos hi]
  · rw [List.getElem?_append_right (by simp; omega), List.getElem?_drop]
    congr 1; simp; omega

theorem ins_getElem?_block {α : Type} (l : List α) (n : Nat) (b : List α) (h : n ≤ l.length) (j : Nat) (hj : j < b.length) :
    (ins l n b)[n + j]? = b[j]? := by
  unfold ins
  rw [List.append_assoc, List.getElem?_append_right (by simp), List.getElem?_append_left (by simp; omega)]
  congr 1; simp; omega

theorem ins_length {α : Type} (l : List α) (n : Nat) (b : List α) (h : n ≤ l.length) :
    (ins l n b).length = l.length + b.length := by
  simp [ins]; omega

theorem ins_map {α β : Type} (g : α → β) (l : List α) (n : Nat) (b : List α) : (ins l n b).map g = ins (l.map g) n (b.map g) := by
  simp [ins]

theorem ins_append {α : Type} (l l' : List α) (n : Nat) (b : List α) (h : n ≤ l.length) : ins l n b ++ l' = ins (l ++ l') n b := by
  simp [ins, List.take_append_of_le_length h, List.drop_append_of_le_length h]

theorem blocks_two {α : Type} (m s : PModel ℝ) (f : PModel ℝ → List α) (hs : (f s).length = s.npoi) :
    blocks [m, s] f = ins (f m) m.npoi (f s) := by
  simp [blocks, ins, List.take_of_length_le hs.le, List.drop_of_length_le hs.le]

theorem satParams_length (info : MapInfo) : (satParams info).length = satNpoi info := by
  unfold satParams satNpoi
  induction info with
  | nil => rfl
  | cons e info ih => rw [List.flatMap_cons, List.length_append, ih]; simp [length_grid]

theorem satModel_ok {inp : InData ℝ} {info : MapInfo} {s : PModel ℝ} (h : satModel inp info = .ok s) :
    s.npoi = satNpoi info ∧ s.npou = 0 ∧ s.params = satParams info ∧ s.xdef = List.replicate (satNpoi info) 1 ∧
    s.allowNeg = false ∧ s.priorSigmas = none ∧ s.priorMeans = none ∧ s.compute = satCompute inp info := by
  unfold satModel at h
  split at h
  · exact nomatch h
  rename_i d hd
  cases h
  refine ⟨rfl, rfl, rfl, ?_, rfl, rfl, rfl, rfl⟩
  simp only [setParamDefault, List.any_nil, Bool.false_eq_true, if_false, List.foldl_nil] at hd
  cases hd
  rw [satParams_length, List.drop_of_length_le (by simp), List.take_of_length_le (by simp)]
  simp

theorem satModel_wf {inp : InData ℝ} {info : MapInfo} {s : PModel ℝ} (h : satModel inp info = .ok s) : ParamModels.Spec.WF s := by
  obtain ⟨h1, h2, h3, h4, h5, h6, h7, h8⟩ := satModel_ok h
  refine ⟨?_, ?_, ?_, ?_⟩
  · rw [h3, satParams_length, PModel.nparams, h1, h2]; rfl
  · rw [h4, PModel.nparams, h1, h2]; simp
  · rw [h6]; intro s hs; exact nomatch hs
  · rw [h7]; intro s hs; exact nomatch hs

/-- with all parameters one, all factors are one -/
theorem spread_keep_ones {axes : List (Axis ℝ)} {names : List String} {l u : List ℝ}
    (h : spread (keepShape axes names) (sizes axes) l = .ok u) (hl : ∀ v ∈ l, v = 1) : ∀ v ∈ u, v = 1 := by
  obtain ⟨-, h2, h3⟩ := spread_keep h
  intro v hv
  obtain ⟨k, hk, rfl⟩ := List.getElem_of_mem hv
  have hk' : k < (grid (sizes axes)).length := by rw [length_grid, ← h2]; exact hk
  obtain ⟨x, hx1, hx2⟩ := h3 _ (List.getElem_mem hk')
  rw [ravel_grid_getElem hk', List.getElem?_eq_getElem hk] at hx2
  rw [Option.some.inj hx2]
  exact hl x (List.mem_of_getElem? hx1)

theorem satBlocks_ones {info : MapInfo} {param : List ℝ} (hp : ∀ v ∈ param, v = 1) : ∀ {start : Nat}
    {cs : List (String × Chan ℝ)} {bl : List (List ℝ)}, satBlocks info param start cs = .ok bl → ∀ l ∈ bl, ∀ v ∈ l, v = 1
  | _, [], bl, h => by cases h; simp
  | start, (k, c) :: cs, bl, h => by
    unfold satBlocks at h
    split at h
    · split at h
      · exact nomatch h
      rename_i bl' hb
      cases h
      intro l hl
      rcases List.mem_cons.1 hl with rfl | hl
      · intro v hv; exact (List.mem_replicate.1 hv).2
      · exact satBlocks_ones hp hb l hl
    · split at h
      · exact nomatch h
      dsimp only at h
      split at h
      · exact nomatch h
      rename_i u hu
      split at h
      · exact nomatch h
      rename_i bl' hb
      cases h
      intro l hl
      rcases List.mem_cons.1 hl with rfl | hl
      · exact spread_keep_ones hu fun v hv => hp v (by
          unfold slice at hv; exact List.mem_of_mem_drop (List.mem_of_mem_take hv))
      · exact satBlocks_ones hp hb l hl

theorem satCompute_ones {inp : InData ℝ} {info : MapInfo} {param : List ℝ} {full : Bool} {r : Rates ℝ}
    (h : satCompute inp info param full = .ok r) (hp : ∀ v ∈ param, v = 1) (b p : Nat) : r.at b p = 1 := by
  unfold satCompute at h
  split at h
  · exact nomatch h
  rename_i bl hb
  split_ifs at h
  cases h
  have hv := satBlocks_ones hp hb
  have : ∀ b, bl.flatten.getD b 1 = 1 := fun b => by
    rw [List.getD_eq_getElem?_getD]
    cases hg : bl.flatten[b]? with
    | none => rfl
    | some v =>
      obtain ⟨l, hl, hvl⟩ := List.mem_flatten.1 (List.mem_of_getElem? hg)
      exact hv l hl v hvl
  unfold Rates.at
  exact this _

/-- the composite of the model of the fit and the saturated model -/
theorem composite_two {inp : InData ℝ} {info : MapInfo} {m s c : PModel ℝ} (hs : satModel inp info = .ok s)
    (hc : composite [m, s] none = .ok c) :
    c.npoi = m.npoi + satNpoi info ∧ c.npou = m.npou ∧ c.params = ins m.params m.npoi (satParams info) ∧
    c.xdef = ins m.xdef m.npoi (List.replicate (satNpoi info) 1) ∧ (m.npoi > 0 → c.allowNeg = m.allowNeg) ∧
    (c.priorSigmas = m.priorSigmas.map fun _ => ins (subSigmas m) m.npoi (List.replicate (satNpoi info) none)) ∧
    (c.priorMeans = m.priorSigmas.map fun _ => ins (subMeans m) m.npoi (List.replicate (satNpoi info) 1)) := by
  obtain ⟨h1, h2, h3, h4, h5, h6, h7, h8⟩ := satModel_ok hs
  obtain ⟨c1, c2, c3, c4, c5, c6⟩ := composite_fields hc
  obtain ⟨p1, p2, p3⟩ := composite_priors hc
  have wf := satModel_wf hs
  have hn : s.nparams = s.npoi := by rw [PModel.nparams, h2]; rfl
  refine ⟨by simp [c1, h1], by simp [c2, h2], ?_, ?_, ?_, ?_, ?_⟩
  · rw [c3, blocks_two _ _ _ (by rw [wf.params, hn]), h3]
  · rw [c4, blocks_two _ _ _ (by rw [wf.xdef, hn]), h4]
  · intro hm
    unfold compositeAllowNeg at c5
    split_ifs at c5
    rename_i hlen
    have c5' := Except.ok.inj c5
    rw [← c5']
    by_cases hk : s.npoi > 0
    · simp only [poiFlags, List.filter_cons, hm, hk, decide_true, if_true, List.filter_nil, List.foldl_cons, List.foldl_nil,
        setAdd, List.not_mem_nil, if_false, List.nil_append]
      split_ifs <;> rfl
    · simp [poiFlags, hm, hk, setAdd]
  · rw [p1]
    have e : subSigmas s = List.replicate (satNpoi info) none := by simp [subSigmas, h6, hn, h1]
    rw [blocks_two _ _ _ (by rw [e, h1]; simp), e]
    cases hm : m.priorSigmas <;> simp [hm, h6]
  · rw [p2]
    have e : subMeans s = List.replicate (satNpoi info) 1 := by simp [subMeans, h7, h4]
    rw [blocks_two _ _ _ (by rw [e, h1]; simp), e]
    cases hm : m.priorSigmas <;> simp [hm, h6]

theorem initParms_ok {m : PModel ℝ} {nu : Nuis} {f : FitParms} (h : initParms m nu = .ok f) :
    f.parms = m.params ++ nu.systs ∧ f.xdef = m.xdef ++ nu.theta0 ∧
    f.cw = (subSigmas m).map priorWeight ++ nu.weights ∧
    (ParamModels.Spec.WF m → ∃ l : List ℝ, l.length = m.nparams ∧ f.x0 = l ++ nu.theta0 ∧
      (∀ i, i < m.nparams → (subSigmas m)[i]? = some none → l[i]? = m.xdef[i]?)) := by
  unfold initParms at h
  split at h
  · rename_i hs
    cases h
    refine ⟨rfl, rfl, ?_, fun wf => ⟨m.xdef, wf.xdef, rfl, fun _ _ _ => rfl⟩⟩
    simp [subSigmas, hs, priorWeight]
  · rename_i sg hs
    dsimp only at h
    split_ifs at h with hl
    split at h
    · exact nomatch h
    rename_i w hw
    cases h
    unfold acceptPriors at hw
    split_ifs at hw
    cases hw
    refine ⟨rfl, rfl, by simp [subSigmas, hs], fun wf => ⟨_, by simp, rfl, fun i hi hn => ?_⟩⟩
    rw [List.getElem?_map, List.getElem?_range hi]
    simp only [subSigmas, hs, Option.getD_some] at hn
    rw [List.getElem?_eq_getElem (by rw [wf.xdef]; exact hi)]
    simp [List.getD_eq_getElem?_getD, hn, priorCentre, List.getElem?_eq_getElem (show i < m.xdef.length by rw [wf.xdef]; exact hi)]

theorem assignSlice_ok {l : List ℝ} {a b : Nat} {v l' : List ℝ} (h : assignSlice l a b v = .ok l') :
    (slice l a b).length = v.length ∧ l' = l.take a ++ v ++ l.drop (a + v.length) := by
  unfold assignSlice at h
  split_ifs at h with hl
  cases h
  exact ⟨hl, rfl⟩

theorem assign_mid (X Y Z v : List ℝ) {a b : Nat} (ha : a = X.length) (hb : b = a + Y.length) (hv : Y.length = v.length) :
    assignSlice (X ++ (Y ++ Z)) a b v = .ok (X ++ (v ++ Z)) := by
  subst ha hb
  unfold assignSlice slice
  rw [if_pos (by simp [hv]), ← hv]
  simp

theorem split_at {l : List ℝ} {a b : Nat} (h : a ≤ b) (hb : b ≤ l.length) :
    ∃ A B C, l = A ++ (B ++ C) ∧ A.length = a ∧ B.length = b - a :=
  ⟨l.take a, (l.drop a).take (b - a), l.drop b, by
    rw [show l.drop b = (l.drop a).drop (b - a) by rw [List.drop_drop]; congr 1; omega, List.take_append_drop,
      List.take_append_drop], by simp; omega, by simp; omega⟩

theorem keepCentres_ok {m c : PModel ℝ} {toy x0 : List ℝ} {k ns : Nat} (hc : c.npoi = m.npoi + k)
    (hu : c.npou = m.npou) (ht : toy.length = m.nparams + ns) (hx : x0.length = c.nparams + ns) :
    keepCentres m c toy x0 = .ok (ins toy m.npoi (slice x0 m.npoi (m.npoi + k))) := by
  unfold PModel.nparams at ht hx
  obtain ⟨P, Q, R, rfl, hP, hQ⟩ := split_at (l := toy) (a := m.npoi) (b := m.npoi + m.npou) (by omega) (by omega)
  obtain ⟨A, B, C, rfl, hA, hB⟩ := split_at (l := x0) (a := m.npoi) (b := m.npoi + k) (by omega) (by omega)
  simp only [List.length_append] at ht hx
  obtain ⟨C, D, E, rfl, hC, hD⟩ := split_at (l := C) (a := m.npou) (b := C.length) (by omega) le_rfl
  have hE : E = [] := List.length_eq_zero_iff.1 (by simp only [List.length_append] at hD hx ht; omega)
  subst hE
  simp only [List.length_append, List.append_nil] at ht hx hD
  have r1 : (P ++ (Q ++ R)).drop m.nparams = R := by
    rw [← List.append_assoc]; exact List.drop_left' (by simp [PModel.nparams]; omega)
  have r2 : (P ++ (Q ++ R)).take m.npoi = P := List.take_left' hP
  have r3 : slice (P ++ (Q ++ R)) m.npoi m.nparams = Q := by
    unfold slice; rw [List.drop_left' hP]; exact List.take_left' (by simp [PModel.nparams]; omega)
  have r4 : slice (A ++ (B ++ (C ++ D))) m.npoi (m.npoi + k) = B := by
    unfold slice; rw [List.drop_left' hA]; exact List.take_left' (by omega)
  have r5 : (P ++ (Q ++ R)).drop m.npoi = Q ++ R := List.drop_left' hP
  unfold keepCentres ins
  simp only [List.append_nil]
  rw [r1, r2, r3, r4, r5]
  have a1 : assignSlice (A ++ (B ++ (C ++ D))) c.nparams (A ++ (B ++ (C ++ D))).length R = .ok (A ++ (B ++ (C ++ R))) := by
    have := assign_mid (A ++ (B ++ C)) D [] R (a := c.nparams) (b := (A ++ (B ++ (C ++ D))).length)
      (by simp [PModel.nparams]; omega) (by simp [PModel.nparams]; omega) (by omega)
    simpa only [List.append_assoc, List.append_nil] using this
  rw [a1]
  dsimp only
  have a2 : (if m.npoi > 0 then assignSlice (A ++ (B ++ (C ++ R))) 0 m.npoi P else .ok (A ++ (B ++ (C ++ R)))) =
      (.ok (P ++ (B ++ (C ++ R))) : Res (List ℝ)) := by
    split_ifs with h0
    · exact assign_mid [] A (B ++ (C ++ R)) P rfl (by omega) (by omega)
    · rw [List.length_eq_zero_iff.1 (show A.length = 0 by omega), List.length_eq_zero_iff.1 (show P.length = 0 by omega)]
  rw [a2]
  dsimp only
  split_ifs with h0
  · have := assign_mid (P ++ B) C R Q (a := c.npoi) (b := c.npoi + m.npou) (by simp; omega) (by omega) (by omega)
    simpa only [List.append_assoc] using this
  · rw [List.length_eq_zero_iff.1 (show C.length = 0 by omega), List.length_eq_zero_iff.1 (show Q.length = 0 by omega)]
    simp

theorem subSigmas_length {m : PModel ℝ} (wf : ParamModels.Spec.WF m) : (subSigmas m).length = m.nparams := by
  unfold subSigmas
  cases h : m.priorSigmas with
  | none => simp
  | some s => exact wf.sigmas s h

theorem subSigmas_two {inp : InData ℝ} {info : MapInfo} {m s c : PModel ℝ} (hs : satModel inp info = .ok s)
    (hc : composite [m, s] none = .ok c) :
    subSigmas c = ins (subSigmas m) m.npoi (List.replicate (satNpoi info) none) := by
  obtain ⟨c1, c2, -, -, -, c6, -⟩ := composite_two hs hc
  unfold subSigmas
  rw [c6]
  cases h : m.priorSigmas with
  | some sg => simp [subSigmas, h]
  | none =>
    simp only [Option.map_none, Option.getD_none, ins, PModel.nparams, c1, c2, List.take_replicate, List.drop_replicate,
      List.replicate_append_replicate]
    congr 1; omega

/-- the vectors of the saturated fitter are those of the fit with one block inserted -/
theorem satFitter_ok {inp : InData ℝ} {info : MapInfo} {m c : PModel ℝ} {nu : Nuis} {toy : List ℝ} {f f' : FitParms}
    (wf : ParamModels.Spec.WF m) (ht0 : nu.theta0.length = nu.systs.length)
    (hf : initParms m nu = .ok f) (htoy : toy.length = m.nparams + nu.systs.length)
    (h : satFitter inp info m nu toy = .ok (c, f')) :
    (∃ s, satModel inp info = .ok s ∧ composite [m, s] none = .ok c) ∧
    f'.parms = ins f.parms m.npoi (satParams info) ∧ f'.xdef = ins f.xdef m.npoi (List.replicate (satNpoi info) 1) ∧
    f'.cw = ins f.cw m.npoi (List.replicate (satNpoi info) 0) ∧ f'.x0 = ins toy m.npoi (List.replicate (satNpoi info) 1) := by
  unfold satFitter at h
  split at h
  · exact nomatch h
  rename_i s hs
  split at h
  · exact nomatch h
  rename_i c' hc
  split at h
  · exact nomatch h
  rename_i f0 hf0
  obtain ⟨a1, a2, a3, a4⟩ := initParms_ok hf
  obtain ⟨b1, b2, b3, b4⟩ := initParms_ok hf0
  obtain ⟨c1, c2, c3, c4, c5, c6, c7⟩ := composite_two hs hc
  have wfc := (c45_layout hc fun m' hm' => by
    rcases List.mem_cons.1 hm' with rfl | hm'
    · exact wf
    · rw [List.mem_singleton.1 hm']; exact satModel_wf hs).2.2.1
  obtain ⟨l, hl1, hl2, hl3⟩ := b4 wfc
  have hnp : m.npoi ≤ m.nparams := Nat.le_add_right _ _
  have hx0 : f0.x0.length = c'.nparams + nu.systs.length := by rw [hl2, List.length_append, hl1, ht0]
  rw [keepCentres_ok c1 c2 htoy hx0] at h
  cases h
  have hblock : slice f0.x0 m.npoi (m.npoi + satNpoi info) = List.replicate (satNpoi info) 1 := by
    have hcn : c.nparams = m.nparams + satNpoi info := by unfold PModel.nparams; omega
    apply List.ext_getElem?
    intro i
    unfold slice
    rw [List.getElem?_take, List.getElem?_replicate]
    have e : m.npoi + satNpoi info - m.npoi = satNpoi info := by omega
    rw [e]
    split_ifs with hi
    · rw [List.getElem?_drop, hl2, List.getElem?_append_left (by rw [hl1, hcn]; omega), hl3 _ (by rw [hcn]; omega), c4]
      · rw [ins_getElem?_block _ _ _ (by rw [wf.xdef]; exact hnp) _ (by simpa using hi), List.getElem?_replicate, if_pos hi]
      · rw [subSigmas_two hs hc, ins_getElem?_block _ _ _ (by rw [subSigmas_length wf]; exact hnp) _ (by simpa using hi),
          List.getElem?_replicate, if_pos hi]
    · rfl
  refine ⟨⟨s, hs, hc⟩, ?_, ?_, ?_, ?_⟩
  · rw [b1, a1, c3, ins_append _ _ _ _ (by rw [wf.params]; exact hnp)]
  · rw [b2, a2, c4, ins_append _ _ _ _ (by rw [wf.xdef]; exact hnp)]
  · rw [b3, a3, subSigmas_two hs hc, ins_map, ins_append _ _ _ _ (by rw [List.length_map, subSigmas_length wf]; exact hnp)]
    simp [priorWeight]
  · dsimp only; rw [hblock]

/-- effective value of the stored saturated parameters -/
noncomputable def sq (c : PModel ℝ) (y : List ℝ) : List ℝ := if c.allowNeg then y else y.map (· ^ 2)

theorem effective_two {inp : InData ℝ} {info : MapInfo} {m s c : PModel ℝ} (hs : satModel inp info = .ok s)
    (hc : composite [m, s] none = .ok c) (x y : List ℝ) (hx : m.npoi ≤ x.length) (hy : y.length = satNpoi info) :
    effective c (ins x m.npoi y) = ins (effective m x) m.npoi (sq c y) := by
  obtain ⟨c1, c2, c3, c4, c5, c6, c7⟩ := composite_two hs hc
  have t1 : (ins x m.npoi y).take c.npoi = x.take m.npoi ++ y := by
    rw [c1]; exact List.take_left' (by simp; omega)
  have t2 : (ins x m.npoi y).drop c.npoi = x.drop m.npoi := by
    rw [c1]; exact List.drop_left' (by simp; omega)
  unfold effective
  rw [t1, t2]
  have hlen : (if m.allowNeg then x.take m.npoi else (x.take m.npoi).map (· ^ 2)).length = m.npoi := by
    split_ifs <;> (simp; omega)
  unfold ins sq
  rw [List.take_left' hlen, List.drop_left' hlen]
  congr 1
  by_cases h0 : m.npoi > 0
  · rw [c5 h0]
    split_ifs <;> simp
  · have h0 : m.npoi = 0 := by omega
    split_ifs <;> simp [h0]

theorem sq_ones (c : PModel ℝ) (k : Nat) : sq c (List.replicate k 1) = List.replicate k 1 := by
  unfold sq; split_ifs <;> simp

theorem sq_length (c : PModel ℝ) (y : List ℝ) : (sq c y).length = y.length := by
  unfold sq; split_ifs <;> simp

theorem allowNeg_two {inp : InData ℝ} {info : MapInfo} {m s c : PModel ℝ} (hs : satModel inp info = .ok s)
    (hc : composite [m, s] none = .ok c) (hk : satNpoi info > 0) : c.allowNeg = false := by
  obtain ⟨h1, h2, h3, h4, h5, h6, h7, h8⟩ := satModel_ok hs
  obtain ⟨c1, c2, c3, c4, c5, c6⟩ := composite_fields hc
  unfold compositeAllowNeg at c5
  split_ifs at c5 with hlen
  have c5' := Except.ok.inj c5
  rw [← h1] at hk
  by_cases hm : m.npoi > 0
  · simp only [poiFlags, List.filter_cons, hm, hk, decide_true, if_true, List.filter_nil, List.foldl_cons, List.foldl_nil,
      setAdd, List.not_mem_nil, if_false, List.nil_append, h5, List.mem_singleton] at c5' hlen
    cases ha : m.allowNeg
    · simp only [ha, if_true] at c5'; rw [← c5']; rfl
    · simp [ha] at hlen
  · rw [← c5']; simp [poiFlags, hm, hk, setAdd, h5]

theorem effective_length (m : PModel ℝ) (x : List ℝ) (hx : m.npoi ≤ x.length) : (effective m x).length = x.length := by
  unfold effective
  split_ifs
  · simp
  · simp; omega

/-- rates of the composite: the product -/
theorem compute_mul {inp : InData ℝ} {info : MapInfo} {m s c : PModel ℝ} (hs : satModel inp info = .ok s)
    (hc : composite [m, s] none = .ok c) (e z : List ℝ) (he : e.length = m.nparams) (hz : z.length = satNpoi info)
    (full : Bool) {r : Rates ℝ} (hr : c.compute (ins e m.npoi z) full = .ok r) :
    ∃ r0 r1, m.compute e full = .ok r0 ∧ satCompute inp info z full = .ok r1 ∧ ∀ b p, r.at b p = r0.at b p * r1.at b p := by
  obtain ⟨h1, h2, h3, h4, h5, h6, h7, h8⟩ := satModel_ok hs
  obtain ⟨c1, c2, -⟩ := composite_two hs hc
  have hnp : m.npoi ≤ e.length := by rw [he]; exact Nat.le_add_right _ _
  have hlen : (ins e m.npoi z).length = c.nparams := by
    rw [ins_length _ _ _ hnp, he]; simp [PModel.nparams]; omega
  obtain ⟨rs, hl, hrs, hat⟩ := c45_product hc _ hlen full r hr
    (fun j => if j = 0 then e else z) (by
      intro j m' hj
      match j, hj with
      | 0, hj =>
        simp only [List.getElem?_cons_zero, Option.some.injEq] at hj
        subst hj
        refine ⟨he, fun k hk => ?_⟩
        change e[k]? = _
        rw [← ins_getElem? e m.npoi z hnp k]
        congr 1
        unfold ParamModels.Spec.pos
        simp only [List.take_zero, List.map_nil, List.sum_nil, List.map_cons, List.sum_cons, h1]
        split_ifs <;> omega
      | 1, hj =>
        simp only [List.getElem?_cons_succ, List.getElem?_cons_zero, Option.some.injEq] at hj
        subst hj
        refine ⟨by simp [PModel.nparams, h1, h2, hz], fun k hk => ?_⟩
        have hk' : k < satNpoi info := by unfold PModel.nparams at hk; omega
        change z[k]? = _
        unfold ParamModels.Spec.pos
        rw [if_pos (by rw [h1]; exact hk')]
        simp only [List.take_succ_cons, List.take_zero, List.map_cons, List.map_nil, List.sum_cons, List.sum_nil, Nat.add_zero]
        rw [ins_getElem?_block _ _ _ hnp _ (by omega)]
      | j + 2, hj => simp at hj)
  obtain ⟨r0, hr0, hm⟩ := hrs 0 m rfl
  obtain ⟨r1, hr1, hs1⟩ := hrs 1 s rfl
  rw [h8] at hs1
  refine ⟨r0, r1, hm, hs1, fun b p => ?_⟩
  rw [hat]
  match rs, hl, hr0, hr1 with
  | [a, b'], _, hr0, hr1 =>
    simp only [List.getElem?_cons_zero, List.getElem?_cons_succ, Option.some.injEq] at hr0 hr1
    subst hr0 hr1
    simp

/-- rates of the composite at a point with all saturated parameters one -/
theorem compute_two {inp : InData ℝ} {info : MapInfo} {m s c : PModel ℝ} (hs : satModel inp info = .ok s)
    (hc : composite [m, s] none = .ok c) (e : List ℝ) (he : e.length = m.nparams) (full : Bool) {r : Rates ℝ}
    (hr : c.compute (ins e m.npoi (List.replicate (satNpoi info) 1)) full = .ok r) :
    ∃ r', m.compute e full = .ok r' ∧ r'.at = r.at := by
  obtain ⟨r0, r1, h0, h1, hat⟩ := compute_mul hs hc e _ he (by simp) full hr
  refine ⟨r0, h0, ?_⟩
  funext b p
  rw [hat, satCompute_ones h1 (fun v hv => (List.mem_replicate.1 hv).2), mul_one]

theorem initRates_two {inp : InData ℝ} {info : MapInfo} {m s c : PModel ℝ} (wf : ParamModels.Spec.WF m)
    (h1 : m.nparams = 0 → ∀ r, m.compute m.xdef true = .ok r → ∀ b p, r.at b p = 1) (hs : satModel inp info = .ok s)
    (hc : composite [m, s] none = .ok c) {r0 : Nat → Nat → ℝ} (hr : initRates c = .ok r0) : initRates m = .ok r0 := by
  obtain ⟨c1, c2, c3, c4, -⟩ := composite_two hs hc
  unfold initRates at hr ⊢
  by_cases h0 : c.nparams = 0
  · rw [if_pos h0] at hr
    rw [if_pos (by unfold PModel.nparams at h0 ⊢; omega), hr]
  · rw [if_neg h0, c4] at hr
    split at hr
    · rename_i r hr'
      cases hr
      obtain ⟨r', hm, hat⟩ := compute_two hs hc _ wf.xdef true hr'
      split_ifs with hm0
      · rw [← hat]
        congr 1
        funext b p
        exact (h1 hm0 r' hm b p).symm
      · rw [hm]; dsimp only; rw [hat]
    · exact nomatch hr

/-! external terms are resolved by name -/

theorem build_ok {ts : List (Ext.Term ℝ)} {parms : List String} {b : List (Ext.Built ℝ)} (h : Ext.build ts parms = .ok b) :
    parms.Nodup ∧ List.Forall₂ (fun t (u : Ext.Built ℝ) => (u.grad = t.grad ∧ u.hessDense = t.hessDense ∧
      u.hessCsr = if t.hessDense.isSome then none else t.hessSparse) ∧
      List.Forall₂ (fun p i => parms[i]? = some p) t.params u.indices) ts b := by
  unfold Ext.build at h
  dsimp only [bind, Except.bind, throw, throwThe, MonadExceptOf.throw, pure, Except.pure] at h
  split_ifs at h with hn
  have hnd : parms.Nodup := (Ext.parmsIdx_length parms).1 (not_not.1 hn)
  refine ⟨hnd, (Ext.mapM_ok_forall₂ _ _ _ h).imp fun t u hu => ?_⟩
  unfold Ext.buildTerm at hu
  cases hm : t.params.mapM (Ext.resolve (Ext.parmsIdx parms)) with
  | error e => rw [hm] at hu; exact nomatch hu
  | ok ids =>
    rw [hm] at hu
    cases hu
    refine ⟨⟨rfl, rfl, rfl⟩, (Ext.mapM_ok_forall₂ _ _ _ hm).imp fun p i hi => ?_⟩
    unfold Ext.resolve at hi
    split at hi
    · rename_i j hj
      cases hi
      exact (Ext.mem_zipIdx_lookup parms hnd p i).1 hj
    · exact nomatch hi

theorem nodup_getElem?_inj {l : List String} (h : l.Nodup) {i j : Nat} {p : String} (hi : l[i]? = some p) (hj : l[j]? = some p) :
    i = j := by
  obtain ⟨hi1, hi2⟩ := List.getElem?_eq_some_iff.1 hi
  obtain ⟨hj1, hj2⟩ := List.getElem?_eq_some_iff.1 hj
  exact (h.getElem_inj_iff).1 (hi2.trans hj2.symm)

theorem termValue_congr {x x' : List ℝ} {b b' : Ext.Built ℝ} (hg : b.grad = b'.grad) (hd : b.hessDense = b'.hessDense)
    (hc : b.hessCsr = b'.hessCsr) (hi : b.indices.map (fun i => x.getD i 0) = b'.indices.map fun i => x'.getD i 0) :
    Ext.termValue x b = Ext.termValue x' b' := by
  unfold Ext.termValue
  rw [hg, hd, hc, hi]

theorem external_two {ts : List (Ext.Term ℝ)} {parms names : List String} {n : Nat} {b b' : List (Ext.Built ℝ)}
    (hn : n ≤ parms.length) (h : Ext.build ts parms = .ok b) (h' : Ext.build ts (ins parms n names) = .ok b')
    (x o : List ℝ) (hx : x.length = parms.length) (ho : o.length = names.length) :
    Ext.computeExternal b' (ins x n o) = Ext.computeExternal b x := by
  obtain ⟨-, hb⟩ := build_ok h
  obtain ⟨hnd, hb'⟩ := build_ok h'
  have key : ∀ (ps : List String) (is is' : List Nat), List.Forall₂ (fun p i => parms[i]? = some p) ps is →
      List.Forall₂ (fun p i => (ins parms n names)[i]? = some p) ps is' →
      is'.map (fun i => (ins x n o).getD i 0) = is.map fun i => x.getD i 0 := by
    intro ps is is' h1 h2
    induction h1 generalizing is' with
    | nil => cases h2; rfl
    | @cons p i ps is hp _ ih =>
      cases h2 with
      | @cons _ i' _ is' hp' h2 =>
        rw [List.map_cons, List.map_cons, ih is' h2]
        congr 1
        have e := ins_getElem? parms n names hn i
        rw [hp] at e
        have : i' = if i < n then i else i + names.length := nodup_getElem?_inj hnd hp' e
        rw [this, List.getD_eq_getElem?_getD, List.getD_eq_getElem?_getD, ← ho, ins_getElem? x n o (by omega) i]
  have hlen : b'.isEmpty = b.isEmpty := by
    have := hb.length_eq; have := hb'.length_eq
    cases b <;> cases b' <;> simp_all
  have hsum : ∀ (ts : List (Ext.Term ℝ)) (b b' : List (Ext.Built ℝ)) (acc : ℝ),
      List.Forall₂ (fun t (u : Ext.Built ℝ) => (u.grad = t.grad ∧ u.hessDense = t.hessDense ∧
        u.hessCsr = if t.hessDense.isSome then none else t.hessSparse) ∧
        List.Forall₂ (fun p i => parms[i]? = some p) t.params u.indices) ts b →
      List.Forall₂ (fun t (u : Ext.Built ℝ) => (u.grad = t.grad ∧ u.hessDense = t.hessDense ∧
        u.hessCsr = if t.hessDense.isSome then none else t.hessSparse) ∧
        List.Forall₂ (fun p i => (ins parms n names)[i]? = some p) t.params u.indices) ts b' →
      b'.foldl (fun acc t => acc + Ext.termValue (ins x n o) t) acc = b.foldl (fun acc t => acc + Ext.termValue x t) acc := by
    intro ts b b' acc h1 h2
    induction h1 generalizing b' acc with
    | nil => cases h2; rfl
    | @cons t u ts b hu _ ih =>
      cases h2 with
      | @cons _ u' _ b' hu' h2 =>
        rw [List.foldl_cons, List.foldl_cons, ih b' _ h2]
        obtain ⟨⟨g1, g2, g3⟩, g4⟩ := hu
        obtain ⟨⟨k1, k2, k3⟩, k4⟩ := hu'
        rw [termValue_congr (k1.trans g1.symm) (k2.trans g2.symm) (k3.trans g3.symm) (key _ _ _ g4 k4)]
  unfold Ext.computeExternal
  rw [hlen]
  split_ifs
  · rfl
  · rw [hsum ts b b' 0 hb hb']

/-- inserted parameters without weight do not contribute to the constraints -/
theorem constraints_two (f f' : FitParms) (e o : List ℝ) (n : Nat) (hn : n ≤ e.length) (hcw : f.cw.length = e.length)
    (hx0 : f.x0.length = e.length) (h1 : f'.cw = ins f.cw n (List.replicate o.length 0)) (w : List ℝ)
    (hw : w.length = o.length) (h2 : f'.x0 = ins f.x0 n w) : constraints f' (ins e n o) = constraints f e := by
  unfold constraints
  have l1 : (ins e n o).length = n + (o.length + (e.length - n)) := by rw [ins_length _ _ _ hn]; omega
  have l2 : e.length = n + (e.length - n) := by omega
  rw [l1]
  conv_rhs => rw [l2]
  rw [List.range_add, List.range_add, List.range_add, List.map_append, List.map_append, List.map_append, List.map_append,
    List.sum_append, List.sum_append, List.sum_append]
  have getA : ∀ (l b : List ℝ) (i : Nat), n ≤ l.length → i < n → (ins l n b).getD i 0 = l.getD i 0 := fun l b i hl hi => by
    have := ins_getElem? l n b hl i
    rw [if_pos hi] at this
    rw [List.getD_eq_getElem?_getD, List.getD_eq_getElem?_getD, this]
  have getB : ∀ (l b : List ℝ) (i : Nat), n ≤ l.length → b.length = o.length →
      (ins l n b).getD (n + (o.length + i)) 0 = l.getD (n + i) 0 := fun l b i hl hb => by
    have := ins_getElem? l n b hl (n + i)
    rw [if_neg (by omega), hb] at this
    rw [List.getD_eq_getElem?_getD, List.getD_eq_getElem?_getD, ← this]
    congr 2; omega
  congr 1
  · congr 1
    refine List.map_congr_left fun i hi => ?_
    have hi : i < n := List.mem_range.1 hi
    rw [h1, h2, getA _ _ _ (by omega) hi, getA _ _ _ (by omega) hi, getA _ _ _ (by omega) hi]
  · rw [List.map_map, List.map_map, List.map_map]
    have z : (List.map ((fun i => f'.cw.getD i 0 * (1 / 2) * ((ins e n o).getD i 0 - f'.x0.getD i 0) ^ 2) ∘ (fun x => n + x))
        (List.range o.length)).sum = 0 := by
      apply List.sum_eq_zero
      intro v hv
      obtain ⟨i, hi, rfl⟩ := List.mem_map.1 hv
      have hi : i < o.length := List.mem_range.1 hi
      have : f'.cw.getD (n + i) 0 = 0 := by
        rw [h1, List.getD_eq_getElem?_getD, ins_getElem?_block _ _ _ (by omega) _ (by simpa using hi),
          List.getElem?_replicate, if_pos hi]
        rfl
      simp only [Function.comp_apply]
      rw [this, zero_mul, zero_mul]
    rw [z, zero_add, List.map_map]
    congr 1
    refine List.map_congr_left fun i hi => ?_
    simp only [Function.comp_apply]
    rw [h1, h2, getB _ _ _ (by omega) (by simp), getB _ _ _ (by omega) hw, getB _ _ _ hn rfl]

end Verif.SatTest
