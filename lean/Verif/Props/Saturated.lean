import Verif.Props.AxisModels

/-! C66: the saturated model of a projection. -/

namespace Verif.AxisModels

open Verif.ParamModels Verif.Grid Verif.ABCD Verif.SmoothABCD

theorem satBlocks_lengths {info : MapInfo} {param : List ℝ} : ∀ {start : Nat} {cs : List (String × Chan ℝ)}
    {bl : List (List ℝ)}, satBlocks info param start cs = .ok bl → (bl.map List.length).sum = Spec.offset cs
  | _, [], bl, h => by cases h; rfl
  | start, (k, c) :: cs, bl, h => by
    unfold satBlocks at h
    split at h
    · split at h
      · exact nomatch h
      rename_i bl' hb
      cases h
      rw [List.map_cons, List.sum_cons, satBlocks_lengths hb, List.length_replicate]; rfl
    · split at h
      · exact nomatch h
      dsimp only at h
      split at h
      · exact nomatch h
      rename_i l hl
      split at h
      · exact nomatch h
      rename_i bl' hb
      cases h
      rw [List.map_cons, List.sum_cons, satBlocks_lengths hb, (spread_keep hl).2.1]; rfl

/-- channels that are not projected take no parameters -/
theorem satBlocks_skip {info : MapInfo} {param : List ℝ} : ∀ {start : Nat} {cs : List (String × Chan ℝ)},
    (∀ e ∈ cs, info.get? e.1 = none) → ∀ {rest : List (String × Chan ℝ)} {bl : List (List ℝ)},
    satBlocks info param start (cs ++ rest) = .ok bl →
    ∃ A B, bl = A ++ B ∧ A = cs.map (fun e => List.replicate (sizes e.2.axes).prod 1) ∧
      satBlocks info param start rest = .ok B
  | start, [], _, rest, bl, h => ⟨[], bl, rfl, rfl, h⟩
  | start, (k, c) :: cs, hc, rest, bl, h => by
    rw [List.cons_append] at h
    unfold satBlocks at h
    rw [hc (k, c) (by simp)] at h
    dsimp only at h
    split at h
    · exact nomatch h
    rename_i bl' hb
    cases h
    obtain ⟨A, B, rfl, hA, hB⟩ := satBlocks_skip (fun e he => hc e (by simp [he])) hb
    exact ⟨_ :: A, B, rfl, by rw [hA]; rfl, hB⟩

theorem satBlocks_split {info : MapInfo} {param : List ℝ} : ∀ {start : Nat} {cs rest : List (String × Chan ℝ)}
    {bl : List (List ℝ)}, satBlocks info param start (cs ++ rest) = .ok bl →
    ∃ A B start', bl = A ++ B ∧ (A.map List.length).sum = Spec.offset cs ∧ satBlocks info param start' rest = .ok B
  | start, [], rest, bl, h => ⟨[], bl, start, rfl, rfl, h⟩
  | start, (k, c) :: cs, rest, bl, h => by
    rw [List.cons_append] at h
    unfold satBlocks at h
    split at h
    · split at h
      · exact nomatch h
      rename_i bl' hb
      cases h
      obtain ⟨A, B, s', rfl, hA, hB⟩ := satBlocks_split hb
      exact ⟨_ :: A, B, s', rfl, by rw [List.map_cons, List.sum_cons, hA, List.length_replicate]; rfl, hB⟩
    · split at h
      · exact nomatch h
      dsimp only at h
      split at h
      · exact nomatch h
      rename_i l hl
      split at h
      · exact nomatch h
      rename_i bl' hb
      cases h
      obtain ⟨A, B, s', rfl, hA, hB⟩ := satBlocks_split hb
      exact ⟨_ :: A, B, s', rfl, by rw [List.map_cons, List.sum_cons, hA, (spread_keep hl).2.1]; rfl, hB⟩

/-- One parameter per projected bin; the factor of a bin of the projected channel is the parameter of the bin into which it
is projected, all other channels have factor one. -/
theorem c66_rates {inp : InData ℝ} {ch : String} {axs : List (Axis ℝ)} {param : List ℝ} {full : Bool} {r : Rates ℝ}
    (hr : satCompute inp [(ch, axs)] param full = .ok r) (hk : inp.chans.keys.Nodup)
    {pre post : List (String × Chan ℝ)} {k : String} {c : Chan ℝ}
    (hact : Spec.active inp full = pre ++ (k, c) :: post) {idx : List Nat}
    (hidx : List.Forall₂ (fun i (a : Axis ℝ) => i < a.size) idx c.axes) (q : Nat) :
    satNpoi [(ch, axs)] = (sizes axs).prod ∧ r.rows = Spec.offset (Spec.active inp full) ∧ r.cols = 1 ∧
    (k ≠ ch → r.val (Spec.offset pre + ravel (sizes c.axes) idx) q = 1) ∧
    (k = ch → ∃ x, param[Spec.cell c.axes (axs.map (·.name)) idx]? = some x ∧
      r.val (Spec.offset pre + ravel (sizes c.axes) idx) q = x) := by
  have hg := mem_grid_axes.2 hidx
  unfold satCompute at hr
  rw [activeChans_eq] at hr
  split at hr
  · exact nomatch hr
  rename_i bl hbl
  split_ifs at hr
  cases hr
  have hnd : ((Spec.active inp full).map (·.1)).Nodup := (List.filter_sublist.map _).nodup hk
  have hget : ∀ k', k' ≠ ch → Dict.get? ([(ch, axs)] : MapInfo) k' = none := fun k' hne => by
    simp [Dict.get?, Ne.symm hne]
  have hgets : Dict.get? ([(ch, axs)] : MapInfo) ch = some axs := by simp [Dict.get?]
  refine ⟨by simp [satNpoi], ?_, rfl, ?_, ?_⟩
  · dsimp only; rw [List.length_flatten, satBlocks_lengths hbl]
  · intro hne
    rw [hact] at hbl
    obtain ⟨A, B, s', rfl, hA, hB⟩ := satBlocks_split hbl
    unfold satBlocks at hB
    rw [hget k hne] at hB
    dsimp only at hB
    split at hB
    · exact nomatch hB
    rename_i bl' hb'
    cases hB
    dsimp only
    have hlt := ravel_lt hg
    rw [← hA, List.getD_eq_getElem?_getD, flatten_append_getElem? _ _ _ _ (by rw [List.length_replicate]; exact hlt),
      List.getElem?_replicate, if_pos hlt]
    rfl
  · rintro rfl
    rw [hact] at hbl hnd
    rw [List.map_append, List.map_cons, List.nodup_append] at hnd
    have hpre : ∀ e ∈ pre, Dict.get? ([(k, axs)] : MapInfo) e.1 = none := fun e he =>
      hget e.1 (hnd.2.2 e.1 (List.mem_map_of_mem he) k (by simp))
    obtain ⟨A, B, rfl, hA, hB⟩ := satBlocks_skip hpre hbl
    unfold satBlocks at hB
    rw [hgets] at hB
    dsimp only at hB
    split at hB
    · exact nomatch hB
    split at hB
    · exact nomatch hB
    rename_i l hl
    split at hB
    · exact nomatch hB
    rename_i bl' hb'
    cases hB
    obtain ⟨-, h2, h3⟩ := spread_keep hl
    obtain ⟨x, hx1, hx2⟩ := h3 idx hg
    refine ⟨x, ?_, ?_⟩
    · simpa using slice_some hx1
    · dsimp only
      have e : Spec.offset pre = (A.map List.length).sum := by
        rw [hA]; simp [Spec.offset, sizes, Function.comp_def]
      rw [e, List.getD_eq_getElem?_getD, flatten_append_getElem? _ _ _ _ (by rw [h2]; exact ravel_lt hg), hx2]
      rfl

/-- Names, for projections that keep the order of the axes of the channel: the parameter of a projected bin is named after
that bin. -/
theorem c66_names_partial (ch : String) (axes : List (Axis ℝ)) (names : List String) (idx : List Nat)
    (hidx : List.Forall₂ (fun i (a : Axis ℝ) => i < a.size) idx axes) :
    (satParams [(ch, Spec.kept axes names)]).length = satNpoi [(ch, Spec.kept axes names)] ∧
    (satParams [(ch, Spec.kept axes names)])[Spec.cell axes names idx]? =
      some ("saturated_" ++ ch ++ "_" ++ Spec.label (Spec.kept axes names) (Spec.coords axes names idx)) := by
  have hcm := coords_mem names (mem_grid_axes.2 hidx)
  unfold satParams satNpoi
  simp only [List.flatMap_cons, List.flatMap_nil, List.append_nil, List.map_cons, List.map_nil, List.sum_cons, List.sum_nil]
  constructor
  · simp [length_grid]
  · unfold Spec.cell
    rw [List.getElem?_map, List.getElem?_eq_getElem (by rw [length_grid]; exact ravel_lt hcm)]
    have := grid_getElem_ravel hcm
    unfold sizes at this ⊢
    rw [this]
    rfl

/-- The model evaluates for every vector of the declared size if the projection keeps at least one axis of the channel. -/
theorem c66_evaluates {inp : InData ℝ} {ch : String} {c : Chan ℝ} {axs : List (Axis ℝ)} (hk : inp.chans.keys.Nodup)
    (hc : inp.chans.get? ch = some c) (hn : (c.axes.map (·.name)).Nodup) {names : List String} (hnames : names.Nodup)
    (hax : lookupAxes c.axes names = .ok axs) (hne : axs ≠ []) (full : Bool) (hact : Spec.active inp full ≠ [])
    (param : List ℝ) (hlen : param.length = satNpoi [(ch, axs)]) :
    ∃ r, satCompute inp [(ch, axs)] param full = .ok r := by
  have hmap := (lookupAxes_spec hax).1
  have hprod := lookup_perm hax hn hnames
  have hgets : Dict.get? ([(ch, axs)] : MapInfo) ch = some axs := by simp [Dict.get?]
  have hget : ∀ k', k' ≠ ch → Dict.get? ([(ch, axs)] : MapInfo) k' = none := fun k' hne => by
    simp [Dict.get?, Ne.symm hne]
  have none : ∀ (cs : List (String × Chan ℝ)) (s : Nat), (∀ e ∈ cs, e.1 ≠ ch) →
      ∃ bl, satBlocks [(ch, axs)] param s cs = .ok bl ∧ bl.length = cs.length := by
    intro cs
    induction cs with
    | nil => intro s _; exact ⟨[], rfl, rfl⟩
    | cons e cs ih =>
      intro s h
      obtain ⟨bl, hb, hl⟩ := ih s fun e he => h e (by simp [he])
      obtain ⟨k, c'⟩ := e
      refine ⟨List.replicate (sizes c'.axes).prod 1 :: bl, ?_, by simp [hl]⟩
      unfold satBlocks
      rw [hget k (h (k, c') (by simp))]
      dsimp only
      rw [hb]
  have main : ∀ (cs : List (String × Chan ℝ)), (cs.map (·.1)).Nodup → (∀ e ∈ cs, e.1 = ch → e.2 = c) →
      ∃ bl, satBlocks [(ch, axs)] param 0 cs = .ok bl ∧ bl.length = cs.length := by
    intro cs
    induction cs with
    | nil => intro _ _; exact ⟨[], rfl, rfl⟩
    | cons e cs ih =>
      intro hnd hcs
      rw [List.map_cons, List.nodup_cons] at hnd
      obtain ⟨k, c'⟩ := e
      by_cases hkc : k = ch
      · subst hkc
        have : c' = c := hcs (k, c') (by simp) rfl
        subst this
        obtain ⟨bl, hb, hl⟩ := none cs (0 + (sizes axs).prod) fun e he h => hnd.1 (by
          rw [← h]; exact List.mem_map_of_mem (f := (·.1)) he)
        obtain ⟨u, hu⟩ := spread_ok (axes := c'.axes) (names := axs.map (·.name))
          (l := slice param 0 (0 + (sizes axs).prod)) (by
            rw [slice_length (by rw [hlen]; simp [satNpoi]), hmap, ← hprod]; omega)
        refine ⟨u :: bl, ?_, by simp [hl]⟩
        unfold satBlocks
        rw [hgets]
        dsimp only
        rw [if_neg (by simpa using hne), hu]
        dsimp only
        rw [hb]
      · obtain ⟨bl, hb, hl⟩ := ih hnd.2 fun e he => hcs e (by simp [he])
        refine ⟨List.replicate (sizes c'.axes).prod 1 :: bl, ?_, by simp [hl]⟩
        unfold satBlocks
        rw [hget k hkc]
        dsimp only
        rw [hb]
  obtain ⟨bl, hb, hl⟩ := main (Spec.active inp full) ((List.filter_sublist.map _).nodup hk) (fun e he hec => by
    have := Dict.get?_of_mem _ _ _ hk (List.mem_filter.1 he).1
    rw [hec, hc] at this
    exact (Option.some.inj this).symm)
  unfold satCompute
  rw [activeChans_eq, hb]
  dsimp only
  rw [if_neg]
  · exact ⟨_, rfl⟩
  · intro he
    rw [List.isEmpty_iff] at he
    rw [he] at hl
    exact hact (List.length_eq_zero_iff.1 hl.symm)

/-- A case: projection of the channel `a` onto its first axis. -/
example : ∃ r, satCompute Ex.inp [("a", [⟨"eta", 2, 2, [0, 1, 2], [1 / 2, 3 / 2]⟩])] [3, 5] false = .ok r ∧ r.val 2 0 = 3 ∧
    r.val 5 0 = 5 ∧ r.val 0 0 = 1 := ⟨_, rfl, rfl, rfl, rfl⟩

/-- A projection onto no axis has one declared parameter but cannot be evaluated: the product of the empty list of sizes
is a floating point number and is used as a slice bound. -/
theorem c66_inclusive_violated (inp : InData ℝ) (ch : String) (c : Chan ℝ) (rest : Dict String (Chan ℝ))
    (h : inp.chans = (ch, c) :: rest) (hm : c.masked = false) (param : List ℝ) (full : Bool) :
    satNpoi [(ch, [])] = 1 ∧ satCompute inp [(ch, [])] param full = .error .type := by
  refine ⟨rfl, ?_⟩
  unfold satCompute activeChans
  rw [h, List.filter_cons_of_pos (by simp [hm])]
  unfold satBlocks
  rw [show Dict.get? ([(ch, [])] : MapInfo) ch = some [] by simp [Dict.get?]]
  rfl

/-- A projection that exchanges the axes names its parameters in the exchanged order but reads them in the order of the
channel: the parameter that bin (0, 1) uses carries the label of another bin. -/
theorem c66_axis_order_violated :
    ∃ (axs : List (Axis ℝ)) (param : List ℝ) (r : Rates ℝ), axs.map (·.name) = ["m", "eta"] ∧
      satCompute Ex.inp [("a", axs)] param false = .ok r ∧ (satParams [("a", axs)])[1]? = some "saturated_a_m0_eta1" ∧
      param[1]? = some 7 ∧ r.val (2 + ravel [2, 3] [0, 1]) 0 = 7 :=
  ⟨[⟨"m", 3, 3, [0, 1, 2, 3], [1 / 2, 3 / 2, 5 / 2]⟩, ⟨"eta", 2, 2, [0, 1, 2], [1 / 2, 3 / 2]⟩], [1, 7, 2, 3, 4, 5], _, rfl, rfl, rfl,
    rfl, rfl⟩

end Verif.AxisModels
