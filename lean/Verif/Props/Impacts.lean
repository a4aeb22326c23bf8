import Verif.Lemmas.Impacts

/-
C37: traditional impacts are bounded by the total uncertainty.  C39: impact columns carry the labels of what
they hold.
-/

namespace Verif.Impacts

open Verif.Cov Matrix

noncomputable section

variable {n ns : ℕ}

namespace Spec

/-- row `r` of an impact table belongs to parameter `i`: first the POIs, then the NOIs -/
def reports (npoi nmodel : ℕ) (noi : List ℕ) (r : ℕ) (i : Fin n) : Prop :=
  (r < npoi ∧ i.val = r) ∨ (∃ s k, r = npoi + s ∧ noi[s]? = some k ∧ i.val = nmodel + k)

/-- column `c` of the grouped table is the impact of the set `S` of parameters: the systematic groups come
first, the `nstat` statistics columns next, the parameter groups last -/
def groupAt (nmodel nstat : ℕ) (groups : List (List ℕ)) (paramGroups : List (List (Fin n))) (c : ℕ)
    (S : Fin n → Prop) : Prop :=
  (∃ g, groups[c]? = some g ∧ ∀ i : Fin n, S i ↔ ∃ k ∈ g, i.val = nmodel + k) ∨
  (∃ p g, c = groups.length + nstat + p ∧ paramGroups[p]? = some g ∧ ∀ i, S i ↔ i ∈ g)

end Spec

theorem gatherMasked_get {α : Type} [Zero α] {f : Fin n → α} {noi : List ℕ} {npoi nmodel : ℕ} {l : List α}
    (hp : npoi ≤ n) (h : gatherMasked (List.ofFn f) noi npoi nmodel = .ok l) :
    l.length = npoi + noi.length ∧ ∀ r i, Spec.reports npoi nmodel noi r i → l[r]? = some (f i) := by
  unfold gatherMasked at h
  dsimp only at h
  split at h
  · cases h
  · cases h
    have hlen : (List.take npoi (List.ofFn f)).length = npoi := by simp [hp]
    refine ⟨by simp [hp], ?_⟩
    rintro r i (⟨hr, hi⟩ | ⟨s, k, rfl, hs, hi⟩)
    · rw [List.getElem?_append_left (by omega), List.getElem?_take_of_lt hr]
      subst hi; simp
    · rw [List.getElem?_append_right (by omega), hlen, Nat.add_sub_cancel_left, List.getElem?_map, hs,
        Option.map_some, List.getD_eq_getElem?_getD, List.getElem?_drop, ← hi]
      simp

theorem forall₂_append_get {α β : Type} {R : α → β → Prop} {l : List α} {r s : List β} (h : List.Forall₂ R l r)
    {k : ℕ} {a : α} (hk : l[k]? = some a) : ∃ b, (r ++ s)[k]? = some b ∧ R a b := by
  obtain ⟨b, hb, hr⟩ := (forall₂_getElem? h k).1 a hk
  refine ⟨b, ?_, hr⟩
  rw [List.getElem?_append_left (List.getElem?_eq_some_iff.1 hb).1, hb]

/-- what a successful call has computed -/
theorem impactsParms_cases {cov : Mat n} {covStat : Mat ns} {noBBB : Option (Mat ns)} {npoi : ℕ} {noi : List ℕ}
    {groups : List (List ℕ)} {nmodel : ℕ} {pg : List (List (Fin n))} {imp : List (Vec n)} {cols : List (List ℝ)}
    (h : impactsParms cov covStat noBBB npoi noi groups nmodel pg = .ok (imp, cols)) :
    ∃ rows stat syst param, gatherMasked (rowsOf cov) noi npoi nmodel = .ok rows ∧
      imp = rows.map (fun v j => v j / safeSigma cov j) ∧
      statColumns covStat noBBB npoi noi nmodel = .ok stat ∧
      systColumns cov rows nmodel groups = .ok syst ∧
      pg.mapM (groupColumn cov rows) = .ok param ∧ cols = syst ++ stat ++ param := by
  unfold impactsParms at h
  cases h1 : gatherMasked (rowsOf cov) noi npoi nmodel with
  | error e => rw [h1] at h; cases h
  | ok rows =>
    rw [h1] at h
    dsimp only at h
    cases h2 : statColumns covStat noBBB npoi noi nmodel with
    | error e => rw [h2] at h; cases h
    | ok stat =>
      rw [h2] at h
      dsimp only at h
      cases h3 : systColumns cov rows nmodel groups with
      | error e => rw [h3] at h; cases h
      | ok syst =>
        rw [h3] at h
        dsimp only at h
        cases h4 : pg.mapM (groupColumn cov rows) with
        | error e => rw [h4] at h; cases h
        | ok param =>
          rw [h4] at h
          cases h
          exact ⟨rows, stat, syst, param, rfl, rfl, rfl, h3, h4, rfl⟩

theorem statColumns_length {covStat : Mat ns} {noBBB : Option (Mat ns)} {npoi : ℕ} {noi : List ℕ} {nmodel : ℕ}
    {stat : List (List ℝ)} (h : statColumns covStat noBBB npoi noi nmodel = .ok stat) :
    stat.length = if noBBB.isSome then 2 else 1 := by
  unfold statColumns at h
  cases noBBB with
  | none =>
    dsimp only at h
    split at h
    · cases h
    · cases h; rfl
  | some c =>
    dsimp only at h
    split at h
    · cases h
    · split at h
      · cases h
      · cases h; rfl

theorem shiftIdxs_mem {nmodel : ℕ} {g : List ℕ} {l : List (Fin n)} (h : shiftIdxs n nmodel g = some l) (i : Fin n) :
    i ∈ l ↔ ∃ k ∈ g, i.val = nmodel + k := by
  have h2 := mapM_some h
  clear h
  induction h2 with
  | nil => simp
  | @cons a b g l hab _ ih =>
    have : b.val = nmodel + a := by
      split at hab
      · cases hab; rfl
      · cases hab
    simp only [List.mem_cons, ih, exists_eq_or_imp]
    refine or_congr ?_ Iff.rfl
    rw [← this, Fin.ext_iff]

theorem shiftIdxs_map {nmodel : ℕ} {g : List ℕ} {l : List (Fin n)} (h : shiftIdxs n nmodel g = some l) :
    l.map Fin.val = g.map fun k => nmodel + k := by
  have h2 := mapM_some h
  clear h
  induction h2 with
  | nil => rfl
  | @cons a b g l hab _ ih =>
    rw [List.map_cons, List.map_cons, ih]
    congr 1
    split at hab
    · cases hab; rfl
    · cases hab

/-- every group column holds the conditional impact of its set of parameters -/
theorem column_of_group {cov : Mat n} {covStat : Mat ns} {noBBB : Option (Mat ns)} {npoi : ℕ} {noi : List ℕ}
    {groups : List (List ℕ)} {nmodel : ℕ} {pg : List (List (Fin n))} {imp : List (Vec n)} {cols : List (List ℝ)}
    (h : impactsParms cov covStat noBBB npoi noi groups nmodel pg = .ok (imp, cols)) {c : ℕ} {S : Fin n → Prop}
    (hc : Spec.groupAt nmodel (if noBBB.isSome then 2 else 1) groups pg c S) :
    ∃ rows l, gatherMasked (rowsOf cov) noi npoi nmodel = .ok rows ∧ (∀ i, i ∈ l ↔ S i) ∧ (gatherM l cov).det ≠ 0 ∧
      cols[c]? = some (rows.map fun v => Real.sqrt (groupSq cov v l)) := by
  obtain ⟨rows, stat, syst, param, hr, _, hst, hsy, hpa, rfl⟩ := impactsParms_cases h
  have hlen := statColumns_length hst
  have hsy2 := mapM_ok hsy
  have hpa2 := mapM_ok hpa
  refine ⟨rows, ?_⟩
  rcases hc with ⟨g, hg, hS⟩ | ⟨p, g, rfl, hg, hS⟩
  · rw [List.append_assoc]
    obtain ⟨b, hb, hf⟩ := forall₂_append_get (s := stat ++ param) hsy2 hg
    cases hs : shiftIdxs n nmodel g with
    | none => rw [hs] at hf; cases hf
    | some l =>
      rw [hs] at hf
      dsimp only at hf
      obtain ⟨hd, rfl⟩ := groupColumn_ok hf
      exact ⟨l, hr, fun i => (shiftIdxs_mem hs i).trans (hS i).symm, hd, hb⟩
  · obtain ⟨b, hb, hf⟩ := (forall₂_getElem? hpa2 p).1 g hg
    obtain ⟨hd, rfl⟩ := groupColumn_ok hf
    refine ⟨g, hr, fun i => (hS i).symm, hd, ?_⟩
    have hl2 := hsy2.length_eq
    rw [List.getElem?_append_right (by rw [List.length_append]; omega), List.length_append, hlen, ← hl2,
      Nat.add_sub_cancel_left, hb]

theorem safeSigma_pos (cov : Mat n) (j : Fin n) : 0 < safeSigma cov j := by
  unfold safeSigma; split
  · assumption
  · exact one_pos

theorem det_single (C : Mat n) (j : Fin n) : (gatherM [j] C).det = C j j :=
  Matrix.det_fin_one (gatherM [j] C : Matrix (Fin 1) (Fin 1) ℝ)

/-- C37, single nuisances: no impact exceeds the total uncertainty of the parameter, the impact of a parameter on
itself is its uncertainty, and a parameter without variance has no impact. -/
theorem c37_single (cov : Mat n) (hC : cov.PosSemidef) (covStat : Mat ns) (noBBB : Option (Mat ns)) (npoi : ℕ)
    (noi : List ℕ) (groups : List (List ℕ)) (nmodel : ℕ) (pg : List (List (Fin n))) (hp : npoi ≤ n)
    (imp : List (Vec n)) (cols : List (List ℝ))
    (h : impactsParms cov covStat noBBB npoi noi groups nmodel pg = .ok (imp, cols))
    (r : ℕ) (i : Fin n) (hri : Spec.reports npoi nmodel noi r i) :
    ∃ v, imp[r]? = some v ∧ (∀ j, |v j| ≤ Real.sqrt (cov i i)) ∧ v i = Real.sqrt (cov i i) ∧
      ∀ j, (0 < cov j j → v j = cov i j / Real.sqrt (cov j j)) ∧ (cov j j = 0 → v j = 0) := by
  obtain ⟨rows, stat, syst, param, hr, rfl, _⟩ := impactsParms_cases h
  have hrow := (gatherMasked_get hp hr).2 r i hri
  have h0 : ∀ j, cov j j = 0 → cov i j = 0 := by
    intro j hj
    have := cs_entry hC i j
    rw [hj, mul_zero] at this
    exact pow_eq_zero_iff two_ne_zero |>.1 (le_antisymm this (sq_nonneg _))
  have hnn : ∀ j, 0 ≤ cov j j := fun j => hC.diag_nonneg
  have hval : ∀ j, (0 < cov j j → cov i j / safeSigma cov j = cov i j / Real.sqrt (cov j j)) ∧
      (cov j j = 0 → cov i j / safeSigma cov j = 0) := by
    intro j
    refine ⟨fun hj => ?_, fun hj => by rw [h0 j hj, zero_div]⟩
    rw [safeSigma, if_pos (Real.sqrt_pos.2 hj)]
  refine ⟨fun j => cov i j / safeSigma cov j, by rw [List.getElem?_map, hrow]; rfl, ?_, ?_, hval⟩
  · intro j
    rcases (hnn j).lt_or_eq with hj | hj
    · dsimp only
      rw [(hval j).1 hj, abs_div, abs_of_pos (Real.sqrt_pos.2 hj), div_le_iff₀ (Real.sqrt_pos.2 hj),
        ← Real.sqrt_mul (hnn i)]
      exact Real.abs_le_sqrt (cs_entry hC i j)
    · dsimp only
      rw [(hval j).2 hj.symm, abs_zero]; exact Real.sqrt_nonneg _
  · rcases (hnn i).lt_or_eq with hi | hi
    · dsimp only
      rw [(hval i).1 hi, Real.div_sqrt]
    · dsimp only
      rw [(hval i).2 hi.symm, ← hi, Real.sqrt_zero]

/-- C37, groups: a group's impact is non-negative and never exceeds the total uncertainty, a group of one
parameter has the absolute individual impact, and a larger group has no smaller impact.  This holds for the
systematic groups and the parameter groups alike. -/
theorem c37_groups (cov : Mat n) (hC : cov.PosSemidef) (covStat : Mat ns) (noBBB : Option (Mat ns)) (npoi : ℕ)
    (noi : List ℕ) (groups : List (List ℕ)) (nmodel : ℕ) (pg : List (List (Fin n))) (hp : npoi ≤ n)
    (imp : List (Vec n)) (cols : List (List ℝ))
    (h : impactsParms cov covStat noBBB npoi noi groups nmodel pg = .ok (imp, cols))
    (r : ℕ) (i : Fin n) (hri : Spec.reports npoi nmodel noi r i) (c : ℕ) (S : Fin n → Prop)
    (hc : Spec.groupAt nmodel (if noBBB.isSome then 2 else 1) groups pg c S) :
    ∃ col x, cols[c]? = some col ∧ col[r]? = some x ∧ 0 ≤ x ∧ x ≤ Real.sqrt (cov i i) ∧
      (∀ j v, (∀ k, S k ↔ k = j) → imp[r]? = some v → x = |v j|) ∧
      (∀ c' S' col' x', Spec.groupAt nmodel (if noBBB.isSome then 2 else 1) groups pg c' S' → (∀ k, S k → S' k) →
        cols[c']? = some col' → col'[r]? = some x' → x ≤ x') := by
  obtain ⟨rows, l, hr, hl, hd, hcol⟩ := column_of_group h hc
  have hrow := (gatherMasked_get hp hr).2 r i hri
  refine ⟨_, Real.sqrt (groupSq cov (fun j => cov i j) l), hcol, by rw [List.getElem?_map, hrow]; rfl,
    Real.sqrt_nonneg _, Real.sqrt_le_sqrt (groupSq_le_total hC hd i), ?_, ?_⟩
  · intro j v hS hv
    obtain ⟨v', hv', _, _, hval⟩ := c37_single cov hC covStat noBBB npoi noi groups nmodel pg hp imp cols h r i hri
    rw [hv'] at hv; cases hv
    have hlj : l = [j] := by
      have hnd := nodup_of_det hd
      have h1 : ∀ k, k ∈ l ↔ k = j := fun k => (hl k).trans (hS k)
      cases l with
      | nil => have := (h1 j).2 rfl; cases this
      | cons a t =>
        have ha : a = j := (h1 a).1 (by simp)
        subst ha
        cases t with
        | nil => rfl
        | cons b t =>
          have hb : b = a := (h1 b).1 (by simp)
          subst hb
          simp at hnd
    subst hlj
    have hne : cov j j ≠ 0 := by rwa [det_single] at hd
    have hpos : 0 < cov j j := lt_of_le_of_ne hC.diag_nonneg (Ne.symm hne)
    rw [(hval j).1 hpos, groupSq_single, Real.sqrt_div (sq_nonneg _), Real.sqrt_sq_eq_abs, abs_div,
      abs_of_nonneg (Real.sqrt_nonneg (cov j j))]
  · intro c' S' col' x' hc' hsub hcol' hx'
    obtain ⟨rows', l', hr', hl', hd', hcol2⟩ := column_of_group h hc'
    rw [hr] at hr'; cases hr'
    rw [hcol2] at hcol'; cases hcol'
    rw [List.getElem?_map, hrow] at hx'; cases hx'
    exact Real.sqrt_le_sqrt (groupSq_mono hC hd hd' (fun k hk => (hl' k).2 (hsub k ((hl k).1 hk))) _)

/-- The calls the two theorems above speak about succeed: for every positive definite covariance, with groups that
list existing parameters once, and with NOIs only if some parameter beyond the model parameters is
unconstrained. -/
theorem impactsParms_succeeds (cov : Mat n) (hC : cov.PosDef) (covStat : Mat ns) (noBBB : Option (Mat ns)) (npoi : ℕ)
    (noi : List ℕ) (groups : List (List ℕ)) (nmodel : ℕ) (pg : List (List (Fin n)))
    (hnoi : noi = [] ∨ nmodel < ns ∧ nmodel < n) (hg : ∀ g ∈ groups, g.Nodup ∧ ∀ k ∈ g, nmodel + k < n)
    (hpg : ∀ g ∈ pg, g.Nodup) :
    ∃ imp cols, impactsParms cov covStat noBBB npoi noi groups nmodel pg = .ok (imp, cols) := by
  have gm : ∀ {α : Type} [Zero α] {m : ℕ} (f : Fin m → α), (noi = [] ∨ nmodel < m) →
      ∃ l, gatherMasked (List.ofFn f) noi npoi nmodel = .ok l := by
    intro α _ m f hm
    unfold gatherMasked
    dsimp only
    rw [if_neg]
    · exact ⟨_, rfl⟩
    · rintro ⟨h1, h2⟩
      rcases hm with hm | hm
      · exact h1 hm
      · rw [List.drop_eq_nil_iff, List.length_ofFn] at h2; omega
  have gc : ∀ (rows : List (Vec n)) (l : List (Fin n)), l.Nodup → ∃ c, groupColumn cov rows l = .ok c := by
    intro rows l hl
    unfold groupColumn
    rw [if_neg]
    · exact ⟨_, rfl⟩
    · have : (gatherM l cov).PosDef := (gatherM_posDef hl (posDef_iff'.1 hC).1).2 fun z _ hz => (posDef_iff'.1 hC).2 z hz
      exact ((isUnit_iff_isUnit_det _).1 this.isUnit).ne_zero
  obtain ⟨rows, hrows⟩ := gm (fun i j => cov i j) (hnoi.imp_right And.right)
  have hst : ∃ stat, statColumns covStat noBBB npoi noi nmodel = .ok stat := by
    unfold statColumns
    cases noBBB with
    | none =>
      obtain ⟨l, hl⟩ := gm (fun i => Real.sqrt (covStat i i)) (hnoi.imp_right And.left)
      exact ⟨_, by dsimp only; rw [hl]⟩
    | some c =>
      obtain ⟨l, hl⟩ := gm (fun i => Real.sqrt (c i i)) (hnoi.imp_right And.left)
      obtain ⟨l2, hl2⟩ := gm (fun i => covStat i i - c i i) (hnoi.imp_right And.left)
      exact ⟨_, by dsimp only; rw [hl]; dsimp only; rw [hl2]⟩
  obtain ⟨stat, hst⟩ := hst
  have hsy : ∃ syst, systColumns cov rows nmodel groups = .ok syst := by
    refine mapM_ok' fun g hgm => ?_
    obtain ⟨hnd, hlt⟩ := hg g hgm
    obtain ⟨l, hl⟩ : ∃ l, shiftIdxs n nmodel g = some l :=
      mapM_some' fun k hk => ⟨⟨nmodel + k, hlt k hk⟩, by rw [dif_pos (hlt k hk)]⟩
    have hln : l.Nodup := by
      have h3 := shiftIdxs_map hl
      have : (l.map Fin.val).Nodup := by
        rw [h3]; exact hnd.map fun a b h => by simpa using h
      exact this.of_map
    obtain ⟨c, hc⟩ := gc rows l hln
    exact ⟨c, by rw [hl]; exact hc⟩
  obtain ⟨syst, hsy⟩ := hsy
  obtain ⟨param, hpa⟩ := mapM_ok' fun g hgm => gc rows g (hpg g hgm)
  refine ⟨rows.map (fun v j => v j / safeSigma cov j), syst ++ stat ++ param, ?_⟩
  unfold impactsParms
  rw [show gatherMasked (rowsOf cov) noi npoi nmodel = .ok rows from hrows]
  dsimp only
  rw [hst]; dsimp only
  rw [hsy]; dsimp only
  rw [hpa]

/-- a NOI with a constraint raises when no nuisance is unconstrained: the masked gather reads position 0 of an empty
vector -/
theorem c37_constrained_noi_raises (cov : Mat n) (covStat : Mat ns) (noBBB : Option (Mat ns)) (npoi : ℕ)
    (k : ℕ) (noi : List ℕ) (groups : List (List ℕ)) (nmodel : ℕ) (pg : List (List (Fin n))) (h : ns ≤ nmodel) :
    ∃ e, impactsParms cov covStat noBBB npoi (k :: noi) groups nmodel pg = .error e := by
  cases hr : impactsParms cov covStat noBBB npoi (k :: noi) groups nmodel pg with
  | error e => exact ⟨e, rfl⟩
  | ok p =>
    exfalso
    obtain ⟨rows, stat, syst, param, _, _, hst, _⟩ := impactsParms_cases (imp := p.1) (cols := p.2) hr
    have : ∀ f : Fin ns → ℝ, gatherMasked (List.ofFn f) (k :: noi) npoi nmodel = .error .exception := by
      intro f
      unfold gatherMasked
      dsimp only
      rw [if_pos]
      exact ⟨by simp, by rw [List.drop_eq_nil_iff]; simpa using h⟩
    unfold statColumns at hst
    cases noBBB with
    | none => dsimp only at hst; rw [this] at hst; cases hst
    | some c => dsimp only at hst; rw [this] at hst; cases hst

/-- a systematic group with a member of zero variance (a frozen nuisance) makes the whole table fail: the linear
system of the group is singular -/
theorem c37_frozen_member_raises (cov : Mat n) (covStat : Mat ns) (noBBB : Option (Mat ns)) (npoi : ℕ)
    (noi : List ℕ) (groups : List (List ℕ)) (nmodel : ℕ) (pg : List (List (Fin n))) (j : Fin n)
    (hj : ∀ k, cov j k = 0) (g : List ℕ) (hg : g ∈ groups) (k : ℕ) (hk : k ∈ g) (hjk : j.val = nmodel + k) :
    ∃ e, impactsParms cov covStat noBBB npoi noi groups nmodel pg = .error e := by
  cases hr : impactsParms cov covStat noBBB npoi noi groups nmodel pg with
  | error e => exact ⟨e, rfl⟩
  | ok p =>
    exfalso
    obtain ⟨c, hc⟩ := List.mem_iff_getElem?.1 hg
    obtain ⟨rows, l, _, hl, hd, _⟩ := column_of_group (imp := p.1) (cols := p.2) hr
      (c := c) (S := fun i => ∃ k ∈ g, i.val = nmodel + k) (.inl ⟨g, hc, fun _ => Iff.rfl⟩)
    have hjl : j ∈ l := (hl j).2 ⟨k, hk, hjk⟩
    obtain ⟨a, ha⟩ := List.get_of_mem hjl
    refine hd (Matrix.det_eq_zero_of_row_eq_zero a fun b => ?_)
    show cov (l.get a) (l.get b) = 0
    rw [ha]; exact hj _

/-! ### C39 -/

namespace Spec

/-- what a column of a grouped table may hold -/
inductive Source (n : ℕ) : Type
  | set (S : Fin n → Prop)
  | stat
  | bbb
  | bbbProc (p : ℕ)

/-- members of a systematic group -/
def systSet (n nmodel : ℕ) (g : List ℕ) : Fin n → Prop := fun i => ∃ k ∈ g, i.val = nmodel + k

/-- the documented table: systematic groups, data statistics, bin-by-bin statistics (total, then per process),
parameter groups that have a floating member -/
def table (parms : Fin n → String) (frozen : List (Fin n)) (systgroups : List String) (groups : List (List ℕ))
    (nmodel : ℕ) (procs : List String) (bbb perProcess : Bool) (modelGroups : List (String × List String)) :
    List (String × Source n) :=
  (List.zip systgroups groups).map (fun p => (p.1, .set (systSet n nmodel p.2))) ++
  [("stat", .stat)] ++
  (if bbb then [("binByBinStat", .bbb)] else []) ++
  (if bbb && perProcess then procs.zipIdx.map (fun p => ("binByBinStat" ++ p.1, .bbbProc p.2)) else []) ++
  (modelGroups.filter fun g => g.2.any fun p => (List.finRange n).any fun i => parms i == p && !frozen.contains i).map
    (fun g => (g.1, .set fun i => parms i ∈ g.2 ∧ i ∉ frozen))

/-- the conditional uncertainty: `x²` is the part of the variance of parameter `i` that goes away when the
parameters in `S` are used to predict it -/
def conditional (cov : Mat n) (i : Fin n) (S : Fin n → Prop) (x : ℝ) : Prop :=
  0 ≤ x ∧ IsLeast {e | ∃ z : Vec n, (∀ j, ¬ S j → z j = 0) ∧
    e = (Pi.single i 1 + -z) ⬝ᵥ cov.mulVec (Pi.single i 1 + -z)} (cov i i - x ^ 2)

/-- diagonal entry, zero outside -/
def diagAt (c : Mat ns) (i : Fin n) : ℝ := if h : i.val < ns then c ⟨i.val, h⟩ ⟨i.val, h⟩ else 0

/-- meaning of an entry of the traditional table for parameter `i` -/
def traditional (cov : Mat n) (covStat : Mat ns) (noBBB : Option (Mat ns)) (i : Fin n) (x : ℝ) : Source n → Prop
  | .set S => conditional cov i S x
  | .stat => x = Real.sqrt (diagAt (noBBB.getD covStat) i)
  | .bbb => x = Real.sqrt (max 0 (diagAt covStat i - diagAt (noBBB.getD covStat) i))
  | .bbbProc _ => False

/-- meaning of an entry of the global tables, given the squared impacts of the single sources -/
def global (sq : Vec n) (nobs beta : ℝ) (proc : List ℝ) (x : ℝ) : Source n → Prop
  | .set S => 0 ≤ x ∧ ∃ T : Finset (Fin n), (∀ i, i ∈ T ↔ S i) ∧ x ^ 2 = ∑ i ∈ T, sq i
  | .stat => x = nobs
  | .bbb => x = beta
  | .bbbProc p => proc[p]? = some x

end Spec

theorem mem_resolved {parms : Fin n → String} (hinj : Function.Injective parms) (frozen : List (Fin n))
    (l : List String) (i : Fin n) :
    i ∈ (l.filterMap fun p => (List.finRange n).reverse.find? fun i => parms i == p).filter (fun i => !frozen.contains i) ↔
      parms i ∈ l ∧ i ∉ frozen := by
  rw [List.mem_filter, List.mem_filterMap]
  have : ∀ p, ((List.finRange n).reverse.find? fun i => parms i == p) = some i ↔ p = parms i := by
    intro p
    constructor
    · intro h
      have := List.find?_some h
      exact (beq_iff_eq.1 this).symm
    · rintro rfl
      cases hf : (List.finRange n).reverse.find? fun k => parms k == parms i with
      | none =>
        rw [List.find?_eq_none] at hf
        exact absurd (beq_self_eq_true _) (hf i (by simp))
      | some k =>
        have := List.find?_some hf
        rw [hinj (beq_iff_eq.1 this)]
  simp only [this]
  refine and_congr ⟨?_, fun h => ⟨_, h, rfl⟩⟩ (by simp)
  rintro ⟨p, hp, rfl⟩; exact hp

/-- the labels and the members of the parameter groups -/
theorem resolved_spec {parms : Fin n → String} (hinj : Function.Injective parms) (frozen : List (Fin n))
    (mg : List (String × List String)) :
    List.Forall₂ (fun (t : String × Spec.Source n) (g : String × List (Fin n)) =>
        t.1 = g.1 ∧ t.2 = .set fun i => i ∈ g.2)
      ((mg.filter fun g => g.2.any fun p => (List.finRange n).any fun i => parms i == p && !frozen.contains i).map
        fun g => (g.1, Spec.Source.set fun i => parms i ∈ g.2 ∧ i ∉ frozen))
      (resolvedParamGroups parms frozen mg) := by
  unfold resolvedParamGroups
  dsimp only
  induction mg with
  | nil => exact .nil
  | cons g mg ih =>
    have hm := mem_resolved hinj frozen g.2
    rw [List.map_cons]
    by_cases hg : g.2.any fun p => (List.finRange n).any fun i => parms i == p && !frozen.contains i
    · rw [List.filter_cons_of_pos (a := g) hg, List.map_cons, List.filter_cons_of_pos]
      · refine .cons ⟨rfl, ?_⟩ ih
        simp only [hm]
      · simp only [List.any_eq_true, Bool.and_eq_true, beq_iff_eq, Bool.not_eq_true', List.contains_eq_mem,
          decide_eq_false_iff_not] at hg
        obtain ⟨p, hp, i, _, rfl, hif⟩ := hg
        have := (hm i).2 ⟨hp, hif⟩
        simpa using List.ne_nil_of_mem this
    · rw [List.filter_cons_of_neg (a := g) hg, List.filter_cons_of_neg]
      · exact ih
      · intro hne
        apply hg
        have hne' := of_decide_eq_true hne
        obtain ⟨i, hi⟩ := List.exists_mem_of_ne_nil _ hne'
        obtain ⟨h1, h2⟩ := (hm i).1 hi
        simp only [List.any_eq_true, Bool.and_eq_true, beq_iff_eq, Bool.not_eq_true', List.contains_eq_mem,
          decide_eq_false_iff_not]
        exact ⟨_, h1, i, by simp, rfl, h2⟩

theorem zip_map_fst {α β : Type} {l : List α} {m : List β} (h : l.length = m.length) : (l.zip m).map Prod.fst = l :=
  List.map_fst_zip (by omega)

theorem zipIdx_labels (procs : List String) (f : ℕ → Spec.Source n) (k : ℕ) :
    (procs.zipIdx k).map (fun p => (("binByBinStat" ++ p.1, f p.2) : String × Spec.Source n).1) =
      procs.map fun p => "binByBinStat" ++ p := by
  induction procs generalizing k with
  | nil => rfl
  | cons a l ih => rw [List.zipIdx_cons, List.map_cons, List.map_cons, ih]

/-- the axis is the list of labels of the documented table -/
theorem axis_labels {parms : Fin n → String} (hinj : Function.Injective parms) (frozen : List (Fin n))
    (systgroups : List String) (groups : List (List ℕ)) (hlen : systgroups.length = groups.length) (nmodel : ℕ)
    (procs : List String) (bbb perProcess : Bool) (mg : List (String × List String)) :
    groupedAxis systgroups procs bbb perProcess ((resolvedParamGroups parms frozen mg).map Prod.fst) =
      (Spec.table parms frozen systgroups groups nmodel procs bbb perProcess mg).map Prod.fst := by
  have h1 : (resolvedParamGroups parms frozen mg).map Prod.fst =
      ((mg.filter fun g => g.2.any fun p => (List.finRange n).any fun i => parms i == p && !frozen.contains i).map
        fun g => ((g.1, Spec.Source.set fun i => parms i ∈ g.2 ∧ i ∉ frozen) : String × Spec.Source n)).map Prod.fst := by
    have := resolved_spec hinj frozen mg
    generalize resolvedParamGroups parms frozen mg = r at this ⊢
    generalize List.map _ _ = t at this ⊢
    induction this with
    | nil => rfl
    | cons h _ ih => rw [List.map_cons, List.map_cons, ih, h.1]
  unfold groupedAxis Spec.table
  rw [h1]
  simp only [List.map_append, List.map_map, List.append_assoc]
  congr 1
  · have := zip_map_fst hlen
    conv_lhs => rw [← this]
    rfl
  · cases bbb with
    | false => simp
    | true =>
      cases perProcess with
      | false => simp
      | true =>
        have := zipIdx_labels procs (Spec.Source.bbbProc (n := n)) 0
        simp only [Bool.and_true, if_true, List.map_cons, List.map_nil, List.cons_append, List.nil_append,
          List.map_map]
        rw [← this]
        rfl

theorem conditional_groupSq {C : Mat n} (hC : C.PosSemidef) {l : List (Fin n)} (hd : (gatherM l C).det ≠ 0) (i : Fin n)
    {S : Fin n → Prop} (hl : ∀ j, j ∈ l ↔ S j) : Spec.conditional C i S (Real.sqrt (groupSq C (fun j => C i j) l)) := by
  have hs := (posSemidef_iff'.1 hC).1
  have hexp : ∀ z : Vec n, (Pi.single i 1 + -z) ⬝ᵥ C.mulVec (Pi.single i 1 + -z) =
      C i i - (2 * (z ⬝ᵥ fun j => C i j) - z ⬝ᵥ C.mulVec z) := by
    intro z
    rw [quad_add hs]
    have h1 : z ⬝ᵥ (fun j => C i j) = Pi.single i 1 ⬝ᵥ C.mulVec z := by
      rw [symm_dot hs, mulVec_single_one]
      simp only [dotProduct, Matrix.col_apply]
      exact Finset.sum_congr rfl fun j _ => by rw [hs.apply]
    simp only [mulVec_neg, dotProduct_neg, neg_dotProduct, neg_neg, single_quad]
    rw [h1]
    ring
  refine ⟨Real.sqrt_nonneg _, ?_, ?_⟩
  · obtain ⟨z, hz, he⟩ := groupSq_attained hC hd fun j => C i j
    refine ⟨z, fun j hj => hz j fun h => hj ((hl j).1 h), ?_⟩
    rw [Real.sq_sqrt (groupSq_nonneg hC hd _), hexp, he]
  · rintro e ⟨z, hz, rfl⟩
    rw [Real.sq_sqrt (groupSq_nonneg hC hd _), hexp]
    have := groupSq_ge hC hd (fun j => C i j) z fun j hj => hz j fun h => hj ((hl j).2 h)
    linarith

theorem gatherMasked_diag {f : Fin ns → ℝ} {noi : List ℕ} {npoi nmodel : ℕ} {l : List ℝ}
    (hp : npoi ≤ ns) (h : gatherMasked (List.ofFn f) noi npoi nmodel = .ok l) (r : ℕ) (i : Fin n)
    (hr : Spec.reports npoi nmodel noi r i) : l[r]? = some (if h : i.val < ns then f ⟨i.val, h⟩ else 0) := by
  unfold gatherMasked at h
  dsimp only at h
  split at h
  · cases h
  · cases h
    have hlen : (List.take npoi (List.ofFn f)).length = npoi := by simp [hp]
    rcases hr with ⟨hr, hi⟩ | ⟨s, k, rfl, hs, hi⟩
    · rw [List.getElem?_append_left (by omega), List.getElem?_take_of_lt hr, dif_pos (by omega)]
      simp only [hi]
      rw [List.getElem?_ofFn, dif_pos (by omega)]
    · rw [List.getElem?_append_right (by omega), hlen, Nat.add_sub_cancel_left, List.getElem?_map, hs,
        Option.map_some, List.getD_eq_getElem?_getD, List.getElem?_drop, ← hi]
      rw [List.getElem?_ofFn]
      split <;> rfl

/-- the rows are labelled with the parameters they belong to -/
theorem c39_rows (parms : Fin n → String) (npoi nmodel : ℕ) (noi : List ℕ) (hp : npoi ≤ n) (r : ℕ) (i : Fin n)
    (h : Spec.reports npoi nmodel noi r i) : (rowLabels (List.ofFn parms) npoi nmodel noi)[r]? = some (parms i) := by
  unfold rowLabels
  have hlen : (List.take npoi (List.ofFn parms)).length = npoi := by simp [hp]
  rcases h with ⟨hr, hi⟩ | ⟨s, k, rfl, hs, hi⟩
  · rw [List.getElem?_append_left (by omega), List.getElem?_take_of_lt hr]
    subst hi; simp
  · rw [List.getElem?_append_right (by omega), hlen, Nat.add_sub_cancel_left, List.getElem?_map, hs,
      Option.map_some, List.getD_eq_getElem?_getD, List.getElem?_drop, ← hi]
    simp

theorem forall₂_of_append {α β : Type} {R : α → β → Prop} {a b : List α} {c d : List β} (h1 : List.Forall₂ R a c)
    (h2 : List.Forall₂ R b d) : List.Forall₂ R (a ++ b) (c ++ d) := by
  induction h1 with
  | nil => exact h2
  | cons h _ ih => exact .cons h ih

/-- C39, traditional impacts: the axis lists the labels of the documented table, the table has one column per label,
and each column holds what its label says, for every parameter with a row. -/
theorem c39_traditional (cov : Mat n) (hC : cov.PosSemidef) (covStat : Mat ns) (noBBB : Option (Mat ns)) (npoi : ℕ)
    (noi : List ℕ) (systgroups : List String) (groups : List (List ℕ)) (hlen : systgroups.length = groups.length)
    (nmodel : ℕ) (parms : Fin n → String) (hinj : Function.Injective parms) (frozen : List (Fin n))
    (mg : List (String × List String)) (procs : List String) (hp : npoi ≤ ns) (hns : ns ≤ n)
    (imp : List (Vec n)) (cols : List (List ℝ))
    (h : impactsParms cov covStat noBBB npoi noi groups nmodel ((resolvedParamGroups parms frozen mg).map Prod.snd) =
      .ok (imp, cols)) :
    groupedAxis systgroups procs noBBB.isSome false ((resolvedParamGroups parms frozen mg).map Prod.fst) =
      (Spec.table parms frozen systgroups groups nmodel procs noBBB.isSome false mg).map Prod.fst ∧
    List.Forall₂ (fun (t : String × Spec.Source n) col => ∀ r i, Spec.reports npoi nmodel noi r i →
        ∃ x, col[r]? = some x ∧ Spec.traditional cov covStat noBBB i x t.2)
      (Spec.table parms frozen systgroups groups nmodel procs noBBB.isSome false mg) cols := by
  refine ⟨axis_labels hinj frozen systgroups groups hlen nmodel procs _ _ mg, ?_⟩
  obtain ⟨rows, stat, syst, param, hr, _, hst, hsy, hpa, rfl⟩ := impactsParms_cases h
  have hrow : ∀ r i, Spec.reports npoi nmodel noi r i → rows[r]? = some fun j => cov i j :=
    (gatherMasked_get (hp.trans hns) hr).2
  unfold Spec.table
  have hgrp : ∀ (l : List (Fin n)) (S : Fin n → Prop) (c : List ℝ), (∀ j, j ∈ l ↔ S j) → groupColumn cov rows l = .ok c →
      ∀ r i, Spec.reports npoi nmodel noi r i → ∃ x, c[r]? = some x ∧ Spec.conditional cov i S x := by
    intro l S c hl hc r i hri
    obtain ⟨hd, rfl⟩ := groupColumn_ok hc
    refine ⟨_, ?_, conditional_groupSq hC hd i hl⟩
    rw [List.getElem?_map, hrow r i hri]; rfl
  refine forall₂_of_append ?_ ?_
  · rw [List.append_assoc, List.append_assoc]
    refine forall₂_of_append ?_ ?_
    · have h2 := mapM_ok hsy
      clear hsy h
      induction h2 generalizing systgroups with
      | nil => rw [List.zip_nil_right]; exact .nil
      | @cons g c groups syst hg _ ih =>
        cases systgroups with
        | nil => simp at hlen
        | cons s ss =>
          refine .cons ?_ (ih ss (by simpa using hlen))
          cases hs : shiftIdxs n nmodel g with
          | none => rw [hs] at hg; cases hg
          | some l =>
            rw [hs] at hg
            exact hgrp l _ c (shiftIdxs_mem hs) hg
    · unfold statColumns at hst
      cases noBBB with
      | none =>
        dsimp only at hst
        cases h1 : gatherMasked (List.ofFn fun i => Real.sqrt (covStat i i)) noi npoi nmodel with
        | error e => rw [h1] at hst; cases hst
        | ok st =>
          rw [h1] at hst; cases hst
          refine .cons ?_ .nil
          intro r i hri
          refine ⟨_, gatherMasked_diag hp h1 r i hri, ?_⟩
          show _ = Real.sqrt (Spec.diagAt covStat i)
          unfold Spec.diagAt
          split <;> simp
      | some c =>
        dsimp only at hst
        cases h1 : gatherMasked (List.ofFn fun i => Real.sqrt (c i i)) noi npoi nmodel with
        | error e => rw [h1] at hst; cases hst
        | ok st =>
          rw [h1] at hst; dsimp only at hst
          cases h2 : gatherMasked (List.ofFn fun i => covStat i i - c i i) noi npoi nmodel with
          | error e => rw [h2] at hst; cases hst
          | ok b =>
            rw [h2] at hst; cases hst
            refine .cons ?_ (.cons ?_ .nil)
            · intro r i hri
              refine ⟨_, gatherMasked_diag hp h1 r i hri, ?_⟩
              show _ = Real.sqrt (Spec.diagAt c i)
              unfold Spec.diagAt
              split <;> simp
            · intro r i hri
              refine ⟨_, by rw [List.getElem?_map, gatherMasked_diag hp h2 r i hri]; rfl, ?_⟩
              show _ = Real.sqrt (max 0 (Spec.diagAt covStat i - Spec.diagAt c i))
              unfold Spec.diagAt
              split <;> simp
  · have h2 := mapM_ok hpa
    have h1 := resolved_spec hinj frozen mg
    clear hpa h
    generalize List.map _ (List.filter _ mg) = t at h1 ⊢
    generalize resolvedParamGroups parms frozen mg = rg at h1 h2
    induction h1 generalizing param with
    | nil => cases h2; exact .nil
    | @cons a b l l' hab _ ih =>
      rw [List.map_cons] at h2
      cases h2 with
      | @cons _ c _ param hc hrest =>
        refine .cons ?_ (ih _ hrest)
        intro r i hri
        rw [hab.2]
        exact hgrp b.2 _ c (fun j => Iff.rfl) hc r i hri

/-- C39, global and gaussian global impacts: same statement for each row, with the columns of single processes when
the bin-by-bin statistics are per process. -/
theorem c39_global (sq : Vec n) (hsq : ∀ i, 0 ≤ sq i) (nobs beta : ℝ) (proc : List ℝ) (bbb full : Bool)
    (systgroups : List String) (groups : List (List ℕ)) (hlen : systgroups.length = groups.length)
    (hnd : ∀ g ∈ groups, g.Nodup)
    (nmodel : ℕ) (parms : Fin n → String) (hinj : Function.Injective parms) (frozen : List (Fin n))
    (mg : List (String × List String)) (hmg : ∀ g ∈ mg, g.2.Nodup) (procs : List String)
    (hproc : proc.length = procs.length) (row : List ℝ)
    (h : globalGrouped nmodel groups ((resolvedParamGroups parms frozen mg).map Prod.snd) sq nobs
      (if bbb then some beta else none) (if full then some proc else none) = .ok row) :
    groupedAxis systgroups procs bbb full ((resolvedParamGroups parms frozen mg).map Prod.fst) =
      (Spec.table parms frozen systgroups groups nmodel procs bbb full mg).map Prod.fst ∧
    List.Forall₂ (fun (t : String × Spec.Source n) x => Spec.global sq nobs beta proc x t.2)
      (Spec.table parms frozen systgroups groups nmodel procs bbb full mg) row := by
  refine ⟨axis_labels hinj frozen systgroups groups hlen nmodel procs _ _ mg, ?_⟩
  unfold globalGrouped at h
  cases hgs : groups.mapM (shiftIdxs n nmodel) with
  | none => rw [hgs] at h; cases h
  | some gs =>
    rw [hgs] at h; cases h
    have hgrp : ∀ (l : List (Fin n)) (S : Fin n → Prop), l.Nodup → (∀ j, j ∈ l ↔ S j) →
        Spec.global sq nobs beta proc (globalGroup sq l) (.set S) := by
      intro l S hl hm
      refine ⟨Real.sqrt_nonneg _, l.toFinset, fun i => by rw [List.mem_toFinset]; exact hm i, ?_⟩
      rw [globalGroup, Real.sq_sqrt, List.sum_toFinset _ hl]
      exact List.sum_nonneg fun x hx => by
        obtain ⟨j, _, rfl⟩ := List.mem_map.1 hx
        exact hsq j
    unfold Spec.table globalGroupedRow
    refine forall₂_of_append ?_ ?_
    · rw [List.append_assoc, List.append_assoc]
      refine forall₂_of_append ?_ ?_
      · have h2 := mapM_some hgs
        clear hgs
        induction h2 generalizing systgroups with
        | nil => rw [List.zip_nil_right]; exact .nil
        | @cons g c groups syst hg _ ih =>
          cases systgroups with
          | nil => simp at hlen
          | cons s ss =>
            refine .cons (hgrp c _ ?_ (shiftIdxs_mem hg)) (ih ss (by simpa using hlen) fun g hgm => hnd g (by simp [hgm]))
            have : (c.map Fin.val).Nodup := by
              rw [shiftIdxs_map hg]; exact (hnd g (by simp)).map fun a b h => by simpa using h
            exact this.of_map
      · cases bbb with
        | false => exact .cons rfl .nil
        | true =>
          cases full with
          | false => exact .cons rfl (.cons rfl .nil)
          | true =>
            refine .cons rfl (.cons rfl ?_)
            show List.Forall₂ _ (procs.zipIdx.map _) proc
            rw [List.forall₂_map_left_iff, List.forall₂_iff_get]
            refine ⟨by simp [hproc], ?_⟩
            intro k h1 h2
            show proc[_]? = some _
            simp
    · have h1 := resolved_spec hinj frozen mg
      have h3 : ∀ g ∈ resolvedParamGroups parms frozen mg, g.2.Nodup := by
        intro g hg
        unfold resolvedParamGroups at hg
        dsimp only at hg
        rw [List.mem_filter, List.mem_map] at hg
        obtain ⟨⟨g0, hg0, rfl⟩, _⟩ := hg
        refine List.Nodup.filter _ (List.Nodup.filterMap ?_ (hmg g0 hg0))
        intro a b c ha hb
        have h1 := List.find?_some ha
        have h2 := List.find?_some hb
        exact (beq_iff_eq.1 h1).symm.trans (beq_iff_eq.1 h2)
      generalize List.map _ (List.filter _ mg) = t at h1 ⊢
      generalize resolvedParamGroups parms frozen mg = rg at h1 h3
      induction h1 with
      | nil => exact .nil
      | @cons a b l l' hab _ ih =>
        refine .cons ?_ (ih fun g hg => h3 g (by simp [hg]))
        rw [hab.2]
        exact hgrp b.2 _ (h3 b (by simp)) fun j => Iff.rfl

end

end Verif.Impacts
