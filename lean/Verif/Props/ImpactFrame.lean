import Verif.Model.ImpactFrame
import Verif.Props.IoTools
import Verif.Lemmas.SelText
import Mathlib.Algebra.Field.Rat
import Mathlib.Algebra.Order.Ring.Rat
import Mathlib.Data.List.Perm.Basic

/-
C84: the tables behind the plots of impacts (bin/rabbit_plot_pulls_and_impacts.py).
-/

namespace Verif.ImpactFrame

open Verif.IoTools Verif.ImpactPrint

variable {V : Type} [Field V] [LinearOrder V]

/-! ## specification -/

namespace Spec

/-- a label is asked for: it is in the requested grouping (groups only) and matches one of the requested patterns, where there are any -/
def Asked (search : String → String → Bool) (o : Opt V) (l : String) : Prop :=
  (o.group = true → ∀ g, o.grouping = some g → g ≠ [] → l ∈ g) ∧ (∀ f, o.filters = some f → f ≠ [] → ∃ p ∈ f, search p l = true)

/-- the impact to be shown for a label with impact `x`: in units of the total uncertainty or scaled; the statistical uncertainty can be
given by hand -/
def size (o : Opt V) (total x : V) (l : String) : V :=
  if o.normalize then (if 0 < o.stat ∧ l = "stat" then o.stat else x / total)
  else (if 0 < o.stat ∧ l = "stat" then o.stat else x) * (if o.scale = 0 then 1 else o.scale)

/-- pull and constraint of a parameter: the pull is taken from the value before the fit -/
def side (sqrt : V → V) (o : Opt V) (h h0 : Hist V) (parms : List String) (l : String) : V × V × Con V :=
  let pull := if o.diffPulls then h.val [parms.idxOf l] - h0.val [parms.idxOf l] else h.val [parms.idxOf l]
  let c := sqrt (h.var [parms.idxOf l])
  (h0.val [parms.idxOf l], pull, .sym c (if c * c < 1 then pull / sqrt (1 - c * c) else 999))

end Spec

/-! ## lemmas -/

omit [Field V] [LinearOrder V] in
theorem keep_iff (search : String → String → Bool) (o : Opt V) (l : String) : keep search o l = true ↔ Spec.Asked search o l := by
  unfold keep Spec.Asked
  rw [Bool.and_eq_true]
  refine and_congr ?_ ?_
  · rcases o.group with _ | _
    · simp
    · rcases o.grouping with _ | _ | ⟨g, gs⟩
      · simp
      · simp
      · simp
  · rcases o.filters with _ | _ | ⟨f, fs⟩
    · simp
    · simp
    · simp

omit [Field V] [LinearOrder V] in
theorem keep_all (search : String → String → Bool) (o : Opt V) (h : masked o = false) (l : String) : keep search o l = true := by
  rw [keep_iff]
  unfold masked at h
  rw [Bool.or_eq_false_iff, Bool.and_eq_false_iff] at h
  obtain ⟨h1, h2⟩ := h
  constructor
  · intro hg g hgr
    rcases h1 with h1 | h1
    · rw [hg] at h1; cases h1
    · rw [hgr] at h1; cases h1
  · intro f hf
    rw [hf] at h2
    cases h2

omit [Field V] [LinearOrder V] in
theorem maskList_map {α β : Type} (L : List α) (k : α → Bool) (f : α → β) : maskList (L.map k) (L.map f) = .ok ((L.filter k).map f) := by
  unfold maskList
  rw [if_pos (by simp)]
  congr 1
  induction L with
  | nil => rfl
  | cons a L ih =>
    rw [List.map_cons, List.map_cons, List.zip_cons_cons, List.filter_cons, List.filter_cons]
    cases k a
    · simpa using ih
    · simpa using ih

omit [Field V] [LinearOrder V] in
theorem filter_keep (search : String → String → Bool) (o : Opt V) (L : List String) :
    (if masked o then L.filter (keep search o) else L) = L.filter (keep search o) := by
  cases h : masked o
  · rw [if_neg (by simp)]
    exact (List.filter_eq_self.2 fun l _ => keep_all search o h l).symm
  · rw [if_pos rfl]

omit [Field V] [LinearOrder V] in
theorem applyMask_vec (search : String → String → Bool) (o : Opt V) (L : List String) (f : String → V) :
    applyMask o (L.map (keep search o)) (.vec (L.map f)) = .ok (.vec ((L.filter (keep search o)).map f)) := by
  unfold applyMask
  cases h : masked o
  · rw [if_neg (by simp), List.filter_eq_self.2 fun l _ => keep_all search o h l]
  · rw [if_pos rfl]
    show (maskList _ _).map Arr.vec = _
    rw [maskList_map]
    rfl

omit [Field V] [LinearOrder V] in
theorem applyMask_mat (search : String → String → Bool) (o : Opt V) (L : List String) (f : String → List V) :
    applyMask o (L.map (keep search o)) (.mat (L.map f)) = .ok (.mat ((L.filter (keep search o)).map f)) := by
  unfold applyMask
  cases h : masked o
  · rw [if_neg (by simp), List.filter_eq_self.2 fun l _ => keep_all search o h l]
  · rw [if_pos rfl]
    show (maskList _ _).map Arr.mat = _
    rw [maskList_map]
    rfl

omit [Field V] [LinearOrder V] in
theorem zip_maps {α β γ : Type} (L : List α) (f : α → β) (g : α → γ) : (L.map f).zip (L.map g) = L.map fun l => (f l, g l) := by
  induction L with
  | nil => rfl
  | cons a L ih => simp [ih]

omit [Field V] [LinearOrder V] in
theorem zipWith_maps {α β γ δ : Type} (L : List α) (f : α → β) (g : α → γ) (k : β → γ → δ) :
    List.zipWith k (L.map f) (L.map g) = L.map fun l => k (f l) (g l) := by
  induction L with
  | nil => rfl
  | cons a L ih => simp [ih]

omit [Field V] [LinearOrder V] in
theorem zipWith_self {α γ δ : Type} (L : List α) (g : α → γ) (k : α → γ → δ) : List.zipWith k L (L.map g) = L.map fun l => k l (g l) := by
  have := zipWith_maps L id g k
  rwa [List.map_id] at this

omit [Field V] [LinearOrder V] in
theorem assign_map {α : Type} (L : List α) (f : α → V) : (Col.each (L.map f)).assign L.length = .ok (L.map f) := by
  show (if (L.map f).length = L.length then _ else _) = _
  rw [if_pos (by simp)]

omit [Field V] [LinearOrder V] in
theorem assign_all {α : Type} (L : List α) (v : V) : (Col.all v).assign L.length = .ok (L.map fun _ => v) := by
  unfold Col.assign
  rw [List.map_const']

theorem impactCols_vec (o : Opt V) (ho : o.asym = false) (L : List String) (f : String → V) :
    impactCols o L.length (.vec (L.map f)) = .ok (L.map fun l => (-f l, f l, |f l|)) := by
  unfold impactCols
  rw [ho, if_neg (by simp)]
  show ((Col.each ((L.map f).map fun x => -x)).assign L.length).bind _ = _
  rw [List.map_map, assign_map, ok_bind]
  show ((Col.each (L.map f)).assign L.length).bind _ = _
  rw [assign_map, ok_bind]
  show ((Col.each ((L.map f).map fun x => |x|)).assign L.length).map _ = _
  rw [List.map_map, assign_map, ok_map, zip_maps, zip_maps]
  rfl

theorem newpull_eq [IsStrictOrderedRing V] (sqrt : V → V) (p c : V) :
    newpull sqrt p c = if c * c < 1 then p / sqrt (1 - c * c) else 999 := by
  unfold newpull
  simp only [sub_pos]

omit [LinearOrder V] in
theorem pullCols_vec (o : Opt V) (L : List String) (p p0 : String → V) :
    pullCols o L.length (.vec (L.map p)) (.vec (L.map p0)) = .ok (L.map fun l => (p0 l, if o.diffPulls then p l - p0 l else p l)) := by
  unfold pullCols
  dsimp only
  rw [if_pos (by simp)]
  cases o.diffPulls
  · rw [if_neg (by simp), zip_maps]; rfl
  · rw [if_pos rfl, zipWith_maps, zip_maps]; rfl

theorem sideCols_vec (sqrt : V → V) (search : String → String → Bool) (o : Opt V) (L : List String) (p p0 c c0 : String → V)
    (con : String → Con V)
    (hc : conCols sqrt o (L.filter (keep search o)).length ((L.filter (keep search o)).map fun l => if o.diffPulls then p l - p0 l else p l)
      (.vec ((L.filter (keep search o)).map c)) = .ok ((L.filter (keep search o)).map con)) :
    sideCols sqrt o (L.filter (keep search o)).length (L.map (keep search o))
      (some (.vec (L.map p), .vec (L.map p0), .vec (L.map c), .vec (L.map c0))) =
      .ok ((L.filter (keep search o)).map fun l => some (p0 l, if o.diffPulls then p l - p0 l else p l, con l)) := by
  unfold sideCols
  dsimp only
  rw [applyMask_vec, ok_bind, applyMask_vec, ok_bind, applyMask_vec, ok_bind, applyMask_vec, ok_bind, pullCols_vec, ok_bind, List.map_map]
  show (conCols sqrt o _ (List.map (fun l => if o.diffPulls = true then p l - p0 l else p l) _) _).map _ = _
  rw [hc, ok_map, zipWith_maps]

theorem conCols_sym [IsStrictOrderedRing V] (sqrt : V → V) (o : Opt V) (ho : o.asym = false) (L : List String) (p c : String → V) :
    conCols sqrt o L.length (L.map p) (.vec (L.map c)) =
      .ok (L.map fun l => .sym (c l) (if c l * c l < 1 then p l / sqrt (1 - c l * c l) else 999)) := by
  unfold conCols
  rw [ho, if_neg (by simp)]
  show ((Col.each (L.map c)).assign L.length).map _ = _
  rw [assign_map, ok_map, zipWith_maps]
  simp only [newpull_eq]

omit [Field V] [LinearOrder V] in
theorem mem_positions {L : List String} {n : String} {i : Nat} : i ∈ positions L n ↔ ∃ h : i < L.length, L[i] = n := by
  unfold positions
  rw [List.mem_filter, List.mem_range]
  constructor
  · rintro ⟨h, he⟩
    refine ⟨h, ?_⟩
    rw [List.getD_eq_getElem?_getD, List.getElem?_eq_getElem h] at he
    exact eq_of_beq he
  · rintro ⟨h, rfl⟩
    refine ⟨h, ?_⟩
    rw [List.getD_eq_getElem?_getD, List.getElem?_eq_getElem h]
    exact beq_self_eq_true _

omit [Field V] [LinearOrder V] in
theorem setAt_vec (L : List String) (f : String → V) (n : String) (v : V) :
    setAt (.vec (L.map f)) (positions L n) v = .vec (L.map fun l => if l = n then v else f l) := by
  unfold setAt
  dsimp only
  congr 1
  apply List.ext_getElem
  · simp
  · intro i h1 h2
    have hi : i < L.length := by simpa using h2
    simp only [List.getElem_map, List.getElem_zipIdx, Nat.zero_add]
    by_cases he : L[i] = n
    · rw [if_pos (mem_positions.2 ⟨hi, he⟩), if_pos he]
    · rw [if_neg (fun hm => he (mem_positions.1 hm).2), if_neg he]

omit [Field V] [LinearOrder V] in
/-- the position of the total -/
theorem positions_total {src : List String} (h : "Total" ∉ src) : positions (src ++ ["Total"]) "Total" = [src.length] := by
  unfold positions
  rw [List.length_append, List.length_singleton, List.range_succ, List.filter_append]
  have h1 : (List.range src.length).filter (fun i => (src ++ ["Total"]).getD i "" == "Total") = [] := by
    rw [List.filter_eq_nil_iff]
    intro i hi
    have hi := List.mem_range.1 hi
    rw [List.getD_eq_getElem?_getD, List.getElem?_append_left hi, List.getElem?_eq_getElem hi]
    intro he
    exact h (eq_of_beq he ▸ List.getElem_mem hi)
  rw [h1, List.nil_append, List.filter_cons, List.getD_eq_getElem?_getD, List.getElem?_append_right (Nat.le_refl _), Nat.sub_self]
  rfl

omit [Field V] [LinearOrder V] in
theorem gather_total {src : List String} (h : "Total" ∉ src) (xs : List V) (hx : xs.length = src.length) (t : V) :
    gather (.vec (xs ++ [t])) (positions (src ++ ["Total"]) "Total") = .ok [t] := by
  rw [positions_total h, gather]
  unfold takeList
  rw [List.getElem?_append_right (by omega), hx, Nat.sub_self]
  rfl

/-- impacts of the labels of a table, from the raw ones -/
theorem impacts_stage (o : Opt V) (L : List String) (f : String → V) (total : V) :
    (if 0 < o.stat ∧ "stat" ∈ L then setAt (.vec (L.map fun l => if o.normalize then f l / total else f l)) (positions L "stat") o.stat
      else .vec (L.map fun l => if o.normalize then f l / total else f l)) =
    .vec (L.map fun l => if 0 < o.stat ∧ l = "stat" then o.stat else if o.normalize then f l / total else f l) := by
  by_cases h : 0 < o.stat ∧ "stat" ∈ L
  · rw [if_pos h, setAt_vec]
    simp [h.1]
  · rw [if_neg h]
    congr 1
    apply List.map_congr_left
    intro l hl
    refine (if_neg ?_).symm
    rintro ⟨h1, rfl⟩
    exact h ⟨h1, hl⟩

theorem scale_stage (o : Opt V) (L : List String) (f : String → V) (total : V) :
    (if o.scale ≠ 0 ∧ o.normalize = false then
      mapArr (· * o.scale) (.vec (L.map fun l => if 0 < o.stat ∧ l = "stat" then o.stat else if o.normalize then f l / total else f l))
      else .vec (L.map fun l => if 0 < o.stat ∧ l = "stat" then o.stat else if o.normalize then f l / total else f l)) =
    .vec (L.map fun l => Spec.size o total (f l) l) := by
  unfold Spec.size
  cases o.normalize
  · by_cases hs : o.scale = 0
    · simp [hs]
    · simp [hs, mapArr, List.map_map, Function.comp_def]
  · simp

omit [Field V] [LinearOrder V] in
/-- the labels of the table -/
theorem table_stage (poi : String) (search : String → String → Bool) (o : Opt V) (L : List String) :
    ∃ ls : List String, ls = (L.filter (keep search o)).filter (fun l => decide (l ≠ poi)) ∧ ls.Sublist L ∧
      ∀ l, l ∈ ls ↔ l ∈ L ∧ Spec.Asked search o l ∧ l ≠ poi := by
  refine ⟨_, rfl, List.filter_sublist.trans List.filter_sublist, fun l => ?_⟩
  rw [List.mem_filter, List.mem_filter, keep_iff, decide_eq_true_eq, and_assoc]

omit [Field V] [LinearOrder V] in
theorem filter_rows (poi : String) (L : List String) (row : String → Row V) (hrow : ∀ l, (row l).label = l) :
    (L.map row).filter (fun r => decide (r.label ≠ poi)) = (L.filter fun l => decide (l ≠ poi)).map row := by
  rw [List.filter_map]
  congr 1
  apply List.filter_congr
  intro l _
  simp [hrow]

/-- the rows of a table of symmetric impacts, once the impacts are read -/
theorem info_stage (sqrt : V → V) (search : String → String → Bool) (res : Dict String (Hist V)) (poi : String) (o : Opt V)
    (L : List String) (f : String → V) (total : V) (pulls : Option (Arr V × Arr V × Arr V × Arr V)) (side : String → Option (V × V × Con V))
    (hr : readImpacts sqrt search res poi o.group o.kind (!o.group) (o.group && o.kind ≠ "nonprofiled") o.asym = .ok ⟨pulls, .vec (L.map f), L⟩)
    (hd : o.normalize = true → divisor sqrt search res poi o ⟨pulls, .vec (L.map f), L⟩ = .ok [total])
    (hside : sideCols sqrt o (L.filter (keep search o)).length (L.map (keep search o)) pulls = .ok ((L.filter (keep search o)).map side))
    (ho : o.asym = false) :
    ∃ ls : List String, ls.Sublist L ∧ (∀ l, l ∈ ls ↔ l ∈ L ∧ Spec.Asked search o l ∧ l ≠ poi) ∧
      readFitInfo sqrt search res poi o =
        .ok (ls.map fun l => ⟨l, -Spec.size o total (f l) l, Spec.size o total (f l) l, |Spec.size o total (f l) l|, side l⟩) := by
  obtain ⟨ls, h1, h2, h3⟩ := table_stage poi search o L
  refine ⟨ls, h2, h3, ?_⟩
  have hi : impactsOf sqrt search res poi o ⟨pulls, .vec (L.map f), L⟩ =
      .ok (.vec (L.map fun l => if 0 < o.stat ∧ l = "stat" then o.stat else if o.normalize then f l / total else f l)) := by
    unfold impactsOf
    have : (if o.normalize = true then (divisor sqrt search res poi o ⟨pulls, .vec (L.map f), L⟩).bind fun d => divide (.vec (L.map f)) d
        else .ok (.vec (L.map f))) = .ok (.vec (L.map fun l => if o.normalize then f l / total else f l)) := by
      cases hn : o.normalize
      · simp
      · rw [if_pos rfl, hd hn, ok_bind]
        show Except.ok (Arr.vec ((L.map f).map (· / total))) = _
        rw [List.map_map]
        rfl
    dsimp only at this ⊢
    rw [this, ok_map, impacts_stage]
  unfold readFitInfo
  rw [hr, ok_bind, hi, ok_bind]
  dsimp only
  rw [filter_keep, applyMask_vec, ok_bind, scale_stage, impactCols_vec o ho, ok_bind, hside, ok_map, zip_maps, zipWith_self,
    filter_rows _ _ _ fun _ => rfl, h1]

omit [Field V] [LinearOrder V] in
theorem map_total (src : List String) (h : "Total" ∉ src) (f : String → V) (t : V) :
    src.map f ++ [t] = (src ++ ["Total"]).map fun l => if l = "Total" then t else f l := by
  rw [List.map_append]
  congr 1
  · apply List.map_congr_left
    intro l hl
    rw [if_neg]
    rintro rfl
    exact h hl

/-! ## the property -/

/-- C84.  Table of groups, symmetric impacts: one row for every group that is asked for, and for the total uncertainty, each with its own
impact, in units of the total uncertainty or scaled. -/
theorem c84_groups (sqrt : V → V) (search : String → String → Bool) (res : Dict String (Hist V)) (poi : String) (o : Opt V)
    (h hp : Hist V) (pois parms src : List String) (hg : o.group = true) (ha : o.asym = false) (hk : o.kind ≠ "nonprofiled")
    (hh : Dict.get? res (IoTools.Spec.source true o.kind false) = some h) (hax : h.axes = [("parms", pois), ("impacts", src)])
    (hhp : Dict.get? res "parms" = some hp) (hpax : hp.axes = [("parms", parms)]) (hpoi : poi ∈ pois) (hpoi' : poi ∈ parms)
    (hnd : src.Nodup) (htot : "Total" ∉ src) :
    let total := sqrt (hp.var [parms.idxOf poi])
    let x := fun l => Spec.size o total (if l = "Total" then total else h.val [pois.idxOf poi, src.idxOf l]) l
    ∃ ls : List String, ls.Sublist (src ++ ["Total"]) ∧ (∀ l, l ∈ ls ↔ l ∈ src ++ ["Total"] ∧ Spec.Asked search o l ∧ l ≠ poi) ∧
      readFitInfo sqrt search res poi o = .ok (ls.map fun l => ⟨l, -x l, x l, |x l|, none⟩) := by
  intro total x
  have hr := c61_impacts sqrt search res poi true o.kind true h hp pois parms src hh hax hhp hpax hpoi hpoi' hnd
  rw [if_pos rfl, if_pos rfl] at hr
  have hk' : (true && decide (o.kind ≠ "nonprofiled")) = true := by simpa using hk
  refine info_stage sqrt search res poi o (src ++ ["Total"]) (fun l => if l = "Total" then total else h.val [pois.idxOf poi, src.idxOf l])
    total none (fun _ => none) ?_ ?_ ?_ ha
  · rw [hg, ha, hk', ← map_total src htot]
    exact hr
  · intro _
    unfold divisor
    rw [if_pos hg]
    dsimp only
    rw [← map_total src htot, gather_total htot _ (by simp)]
  · show Except.ok _ = _
    rw [List.map_const']

/-- C84.  Table of groups of impacts that are not profiled: the same without the total, which does not contain them. -/
theorem c84_groups_nonprofiled (sqrt : V → V) (search : String → String → Bool) (res : Dict String (Hist V)) (poi : String) (o : Opt V)
    (h hp : Hist V) (pois parms src : List String) (hg : o.group = true) (ha : o.asym = false) (hk : o.kind = "nonprofiled")
    (hh : Dict.get? res (IoTools.Spec.source true o.kind false) = some h) (hax : h.axes = [("parms", pois), ("impacts", src)])
    (hhp : Dict.get? res "parms" = some hp) (hpax : hp.axes = [("parms", parms)]) (hpoi : poi ∈ pois) (hpoi' : poi ∈ parms)
    (hnd : src.Nodup) (hn : o.normalize = false) :
    let x := fun l => Spec.size o 1 (h.val [pois.idxOf poi, src.idxOf l]) l
    ∃ ls : List String, ls.Sublist src ∧ (∀ l, l ∈ ls ↔ l ∈ src ∧ Spec.Asked search o l ∧ l ≠ poi) ∧
      readFitInfo sqrt search res poi o = .ok (ls.map fun l => ⟨l, -x l, x l, |x l|, none⟩) := by
  intro x
  have hr := c61_impacts sqrt search res poi true o.kind false h hp pois parms src hh hax hhp hpax hpoi hpoi' hnd
  rw [if_neg (by simp), if_neg (by simp), List.append_nil, List.append_nil] at hr
  have hk' : (true && decide (o.kind ≠ "nonprofiled")) = false := by simpa using hk
  refine info_stage sqrt search res poi o src (fun l => h.val [pois.idxOf poi, src.idxOf l])
    1 none (fun _ => none) ?_ ?_ ?_ ha
  · rw [hg, ha, hk']
    exact hr
  · intro hn'
    rw [hn] at hn'
    cases hn'
  · show Except.ok _ = _
    rw [List.map_const']

/-- C84.  Table of single parameters, symmetric impacts: one row for every parameter that is asked for but the parameter of interest, each
with its own impact, pull and constraint. -/
theorem c84_singles [IsStrictOrderedRing V] (sqrt : V → V) (search : String → String → Bool) (res : Dict String (Hist V)) (poi : String) (o : Opt V)
    (h hp hp0 : Hist V) (pois parms src : List String) (hg : o.group = false) (ha : o.asym = false)
    (hh : Dict.get? res (IoTools.Spec.source false o.kind false) = some h) (hax : h.axes = [("parms", pois), ("impacts", src)])
    (hhp : Dict.get? res "parms" = some hp) (hpax : hp.axes = [("parms", parms)])
    (hhp0 : Dict.get? res "parms_prefit" = some hp0) (hpax0 : hp0.axes = [("parms", parms)])
    (hpoi : poi ∈ pois) (hpoi' : poi ∈ parms) (hnd : parms.Nodup) (hs : src.Sublist parms)
    (hgr : o.normalize = true → ∃ (hgr : Hist V) (gs : List String), Dict.get? res (IoTools.Spec.source true o.kind false) = some hgr ∧
      hgr.axes = [("parms", pois), ("impacts", gs)] ∧ gs.Nodup ∧ "Total" ∉ gs) :
    let total := sqrt (hp.var [parms.idxOf poi])
    let x := fun l => Spec.size o total (h.val [pois.idxOf poi, src.idxOf l]) l
    ∃ ls : List String, ls.Sublist src ∧ (∀ l, l ∈ ls ↔ l ∈ src ∧ Spec.Asked search o l ∧ l ≠ poi) ∧
      readFitInfo sqrt search res poi o = .ok (ls.map fun l => ⟨l, -x l, x l, |x l|, some (Spec.side sqrt o hp hp0 parms l)⟩) := by
  intro total x
  have hr := c61_together_partial sqrt search res poi o.kind false h hp hp0 pois parms src hh hax hhp hpax hhp0 hpax0 hpoi hpoi' hnd hs
    (fun h => nomatch h)
  rw [if_neg (by simp), if_neg (by simp), List.append_nil, List.append_nil] at hr
  refine info_stage sqrt search res poi o src (fun l => h.val [pois.idxOf poi, src.idxOf l])
    total (some (IoTools.Spec.pullsOf sqrt hp hp0 parms src)) (fun l => some (Spec.side sqrt o hp hp0 parms l)) ?_ ?_ ?_ ha
  · rw [hg, ha]
    exact hr
  · intro hn
    obtain ⟨hgr, gs, h1, h2, h3, h4⟩ := hgr hn
    have := c61_impacts sqrt search res poi true o.kind true hgr hp pois parms gs h1 h2 hhp hpax hpoi hpoi' h3
    rw [if_pos rfl, if_pos rfl] at this
    unfold divisor
    rw [hg, if_neg (by simp), ha, this, ok_bind, gather_total h4 _ (by simp)]
  · exact sideCols_vec sqrt search o src _ _ _ _ _ (conCols_sym sqrt o ha _ _ _)

/-- C84.  Table of pulls without impacts: one row for every parameter that is asked for, with its own pull and constraint. -/
theorem c84_pulls [IsStrictOrderedRing V] (sqrt : V → V) (search : String → String → Bool) (res : Dict String (Hist V)) (o : Opt V)
    (hp hp0 : Hist V) (parms : List String) (ha : o.asym = false)
    (hhp : Dict.get? res "parms" = some hp) (hpax : hp.axes = [("parms", parms)])
    (hhp0 : Dict.get? res "parms_prefit" = some hp0) (hpax0 : hp0.axes = [("parms", parms)]) (hnd : parms.Nodup) :
    ∃ ls : List String, ls.Sublist parms ∧ (∀ l, l ∈ ls ↔ l ∈ parms ∧ Spec.Asked search o l) ∧
      readPullInfo sqrt search res o = .ok (ls.map fun l => (l, some (Spec.side sqrt o hp hp0 parms l))) := by
  refine ⟨parms.filter (keep search o), List.filter_sublist, fun l => by rw [List.mem_filter, keep_iff], ?_⟩
  unfold readPullInfo
  rw [ha, readPulls_all sqrt search res false hp parms hhp hpax hnd, ok_bind]
  dsimp only
  rw [readPulls_all sqrt search res true hp0 parms hhp0 hpax0 hnd, ok_bind]
  dsimp only
  rw [filter_keep, sideCols_vec sqrt search o parms _ _ _ _ _ (conCols_sym sqrt o ha _ _ _), ok_map]
  have := zip_maps (parms.filter (keep search o)) id fun l => some (Spec.side sqrt o hp hp0 parms l)
  rw [List.map_id] at this
  exact congrArg _ this

/-! ### asymmetric impacts -/

omit [Field V] [LinearOrder V] in
theorem columnAt_pairs (L : List String) (a b : String → V) :
    columnAt 0 (L.map fun l => [a l, b l]) = .ok (L.map a) ∧ columnAt 1 (L.map fun l => [a l, b l]) = .ok (L.map b) := by
  induction L with
  | nil => exact ⟨rfl, rfl⟩
  | cons l L ih =>
    constructor
    · show (columnAt 0 (L.map fun l => [a l, b l])).map _ = _
      rw [ih.1]; rfl
    · show (columnAt 1 (L.map fun l => [a l, b l])).map _ = _
      rw [ih.2]; rfl

theorem rowMax_pairs (L : List String) (a b : String → V) :
    rowMax ((L.map fun l => [a l, b l]).map fun r => r.map fun x => |x|) = .ok (L.map fun l => max |a l| |b l|) := by
  induction L with
  | nil => rfl
  | cons l L ih =>
    show (Except.ok (max |a l| |b l|)).bind (fun v => (rowMax _).map _) = _
    rw [ok_bind, ih]
    rfl

theorem impactCols_pairs (o : Opt V) (ho : o.asym = true) (L : List String) (a b : String → V) :
    impactCols o L.length (.mat (L.map fun l => [a l, b l])) = .ok (L.map fun l => (b l, a l, max |a l| |b l|)) := by
  unfold impactCols
  rw [ho, if_pos rfl]
  show ((columnAt 1 _).map Col.each).bind _ = _
  rw [(columnAt_pairs L a b).2, ok_map, ok_bind, assign_map, ok_bind]
  show ((columnAt 0 _).map Col.each).bind _ = _
  rw [(columnAt_pairs L a b).1, ok_map, ok_bind, assign_map, ok_bind]
  show ((rowMax _).map Col.each).bind _ = _
  rw [rowMax_pairs, ok_map, ok_bind, assign_map, ok_map, zip_maps, zip_maps]

/-- the rows of a table of asymmetric impacts of single parameters that do not need the scans -/
theorem pairs_stage (sqrt : V → V) (search : String → String → Bool) (res : Dict String (Hist V)) (poi : String) (o : Opt V)
    (h hp hp0 : Hist V) (parms src : List String) (hg : o.group = false) (ha : o.asym = true) (hk : o.kind ≠ "traditional")
    (hh : Dict.get? res (IoTools.Spec.source false o.kind true) = some h)
    (hax : h.axes = [("impacts", src), ("downUpVar", ["0", "1"]), ("parms", parms)])
    (hhp : Dict.get? res "parms" = some hp) (hpax : hp.axes = [("parms", parms)])
    (hhp0 : Dict.get? res "parms_prefit" = some hp0) (hpax0 : hp0.axes = [("parms", parms)])
    (hpoi : poi ∈ parms) (hnd : parms.Nodup) (hs : src.Sublist parms) (hn : o.normalize = false) (hst : ¬0 < o.stat) (hsc : o.scale ≠ 0)
    (con : String → Con V)
    (hc : conCols sqrt o (src.filter (keep search o)).length
      ((src.filter (keep search o)).map fun l => if o.diffPulls then hp.val [parms.idxOf l] - hp0.val [parms.idxOf l] else hp.val [parms.idxOf l])
      (.vec ((src.filter (keep search o)).map fun l => sqrt (hp.var [parms.idxOf l]))) = .ok ((src.filter (keep search o)).map con)) :
    let a := fun l => h.val [src.idxOf l, 0, parms.idxOf poi] * o.scale
    let b := fun l => h.val [src.idxOf l, 1, parms.idxOf poi] * o.scale
    ∃ ls : List String, ls.Sublist src ∧ (∀ l, l ∈ ls ↔ l ∈ src ∧ Spec.Asked search o l ∧ l ≠ poi) ∧
      readFitInfo sqrt search res poi o = .ok (ls.map fun l => ⟨l, b l, a l, max |a l| |b l|,
        some (hp0.val [parms.idxOf l], if o.diffPulls then hp.val [parms.idxOf l] - hp0.val [parms.idxOf l] else hp.val [parms.idxOf l], con l)⟩) := by
  intro a b
  obtain ⟨ls, h1, h2, h3⟩ := table_stage poi search o src
  refine ⟨ls, h2, h3, ?_⟩
  have hk' : (o.kind == "traditional") = false := by simpa using hk
  have hp1 := pullsFor_eq sqrt search res hp hp0 parms hhp hpax hhp0 hpax0 hnd src hs false (fun h => nomatch h)
  rw [if_neg (by simp), List.append_nil] at hp1
  have hr : readImpacts sqrt search res poi o.group o.kind (!o.group) (o.group && o.kind ≠ "nonprofiled") o.asym =
      .ok ⟨some (IoTools.Spec.pullsOf sqrt hp hp0 parms src),
        .mat (src.map fun l => [h.val [src.idxOf l, 0, parms.idxOf poi], h.val [src.idxOf l, 1, parms.idxOf poi]]), src⟩ := by
    rw [hg, ha, Bool.not_false, Bool.false_and, readImpacts_stage sqrt search res poi false o.kind true false true _ hp _ parms src
      ((impactHist_eq res poi false o.kind true h hh (fun _ h => absurd h hk)).trans (pick_third hax hpoi))
      (values_asym h src (hnd.sublist hs) _ _) rfl hhp hpax hpoi, if_pos rfl, if_neg (by simp), if_neg (by simp), List.append_nil, hk', Bool.and_false, hp1, ok_map]
  have hi : impactsOf sqrt search res poi o ⟨some (IoTools.Spec.pullsOf sqrt hp hp0 parms src),
      .mat (src.map fun l => [h.val [src.idxOf l, 0, parms.idxOf poi], h.val [src.idxOf l, 1, parms.idxOf poi]]), src⟩ =
      .ok (.mat (src.map fun l => [h.val [src.idxOf l, 0, parms.idxOf poi], h.val [src.idxOf l, 1, parms.idxOf poi]])) := by
    unfold impactsOf
    rw [hn, if_neg (by simp), ok_map, if_neg fun h => hst h.1]
  unfold readFitInfo
  rw [hr, ok_bind, hi, ok_bind]
  dsimp only
  rw [filter_keep, applyMask_mat, ok_bind, if_pos ⟨hsc, hn⟩]
  have : mapArr (· * o.scale) (.mat ((src.filter (keep search o)).map fun l =>
      [h.val [src.idxOf l, 0, parms.idxOf poi], h.val [src.idxOf l, 1, parms.idxOf poi]])) =
      .mat ((src.filter (keep search o)).map fun l => [a l, b l]) := by
    unfold mapArr
    dsimp only
    rw [List.map_map]
    rfl
  have hside := sideCols_vec sqrt search o src (fun l => hp.val [parms.idxOf l]) (fun l => hp0.val [parms.idxOf l])
    (fun l => sqrt (hp.var [parms.idxOf l])) (fun l => sqrt (hp0.var [parms.idxOf l])) con hc
  rw [this, impactCols_pairs o ha, ok_bind]
  unfold IoTools.Spec.pullsOf
  rw [hside, ok_map, zip_maps, zipWith_self, filter_rows _ _ _ fun _ => rfl, h1]

/-- C84, the part that holds of asymmetric impacts: single parameters that are not profiled.  Every parameter with its own two impacts, its
pull and its constraint.  (Missing: groups, see `c84_pairs_violated`; global impacts, see `c84_constraint_violated`.) -/
theorem c84_pairs_partial (sqrt : V → V) (search : String → String → Bool) (res : Dict String (Hist V)) (poi : String) (o : Opt V)
    (h hp hp0 : Hist V) (parms src : List String) (hg : o.group = false) (ha : o.asym = true) (hk : o.kind = "nonprofiled")
    (hh : Dict.get? res "nonprofiled_impacts_asym" = some h)
    (hax : h.axes = [("impacts", src), ("downUpVar", ["0", "1"]), ("parms", parms)])
    (hhp : Dict.get? res "parms" = some hp) (hpax : hp.axes = [("parms", parms)])
    (hhp0 : Dict.get? res "parms_prefit" = some hp0) (hpax0 : hp0.axes = [("parms", parms)])
    (hpoi : poi ∈ parms) (hnd : parms.Nodup) (hs : src.Sublist parms) (hn : o.normalize = false) (hst : ¬0 < o.stat) (hsc : o.scale ≠ 0) :
    let a := fun l => h.val [src.idxOf l, 0, parms.idxOf poi] * o.scale
    let b := fun l => h.val [src.idxOf l, 1, parms.idxOf poi] * o.scale
    ∃ ls : List String, ls.Sublist src ∧ (∀ l, l ∈ ls ↔ l ∈ src ∧ Spec.Asked search o l ∧ l ≠ poi) ∧
      readFitInfo sqrt search res poi o = .ok (ls.map fun l => ⟨l, b l, a l, max |a l| |b l|,
        some (hp0.val [parms.idxOf l], if o.diffPulls then hp.val [parms.idxOf l] - hp0.val [parms.idxOf l] else hp.val [parms.idxOf l],
          .asym (-sqrt (hp.var [parms.idxOf l])) (sqrt (hp.var [parms.idxOf l])))⟩) := by
  refine pairs_stage sqrt search res poi o h hp hp0 parms src hg ha (by rw [hk]; decide) ?_ hax hhp hpax hhp0 hpax0 hpoi hnd hs hn hst hsc _ ?_
  · rw [hk]; exact hh
  · unfold conCols
    rw [ha, if_pos rfl, if_pos hk]
    show ((Col.each (((src.filter (keep search o)).map fun l => sqrt (hp.var [parms.idxOf l])).map fun x => -x)).assign _).bind _ = _
    rw [List.map_map, assign_map, ok_bind]
    show ((Col.each ((src.filter (keep search o)).map fun l => sqrt (hp.var [parms.idxOf l]))).assign _).map _ = _
    rw [assign_map, ok_map, zipWith_maps]
    rfl

/-- C84 fails for the constraints beside asymmetric global impacts: they are read as one number for every parameter, but the first two of
them are taken for the ends of the interval, so that all parameters get the constraints of the first two. -/
theorem c84_constraint_violated (sqrt : V → V) (search : String → String → Bool) (res : Dict String (Hist V)) (poi : String) (o : Opt V)
    (h hp hp0 : Hist V) (parms src : List String) (s0 s1 : String) (hg : o.group = false) (ha : o.asym = true) (hk : o.kind = "global")
    (hh : Dict.get? res "global_impacts_asym" = some h) (hsrc : src = s0 :: s1 :: src.drop 2)
    (hax : h.axes = [("impacts", src), ("downUpVar", ["0", "1"]), ("parms", parms)])
    (hhp : Dict.get? res "parms" = some hp) (hpax : hp.axes = [("parms", parms)])
    (hhp0 : Dict.get? res "parms_prefit" = some hp0) (hpax0 : hp0.axes = [("parms", parms)])
    (hpoi : poi ∈ parms) (hnd : parms.Nodup) (hs : src.Sublist parms) (hn : o.normalize = false) (hst : ¬0 < o.stat) (hsc : o.scale ≠ 0)
    (hf : o.filters = none) :
    ∃ rows, readFitInfo sqrt search res poi o = .ok rows ∧ rows.map Row.label = src.filter (fun l => decide (l ≠ poi)) ∧
      ∀ r ∈ rows, ∃ p0 p, r.pulls = some (p0, p, .asym (-sqrt (hp.var [parms.idxOf s1])) (sqrt (hp.var [parms.idxOf s0]))) := by
  have hm : masked o = false := by simp [masked, hg, hf]
  have hall : src.filter (keep search o) = src := List.filter_eq_self.2 fun l _ => keep_all search o hm l
  obtain ⟨ls, h1, h2, h3⟩ := pairs_stage sqrt search res poi o h hp hp0 parms src hg ha (by rw [hk]; decide) (by rw [hk]; exact hh) hax hhp hpax
    hhp0 hpax0 hpoi hnd hs hn hst hsc (fun _ => .asym (-sqrt (hp.var [parms.idxOf s1])) (sqrt (hp.var [parms.idxOf s0]))) (by
      rw [hall]
      unfold conCols
      rw [ha, if_pos rfl, if_neg (by rw [hk]; decide)]
      have e1 : lastAxis (.vec (src.map fun l => sqrt (hp.var [parms.idxOf l]))) 1 = .ok (.all (sqrt (hp.var [parms.idxOf s1]))) := by
        rw [hsrc]; rfl
      have e0 : lastAxis (.vec (src.map fun l => sqrt (hp.var [parms.idxOf l]))) 0 = .ok (.all (sqrt (hp.var [parms.idxOf s0]))) := by
        rw [hsrc]; rfl
      rw [e1, ok_bind, assign_all, ok_bind, e0, ok_bind, assign_all, ok_map, zipWith_maps])
  refine ⟨_, h3, ?_, ?_⟩
  · rw [List.map_map]
    have : ls = src.filter fun l => decide (l ≠ poi) := by
      apply List.Sublist.eq_of_length_le ?_ ?_
      · rw [← List.filter_eq_self (p := fun l => decide (l ≠ poi)) (l := ls) |>.2 fun l hl => by simpa using ((h2 l).1 hl).2.2]
        exact h1.filter _
      · apply List.Subperm.length_le
        refine List.subperm_of_subset ((hnd.sublist hs).sublist List.filter_sublist) fun l hl => ?_
        rw [List.mem_filter] at hl
        exact (h2 l).2 ⟨hl.1, (keep_iff search o l).1 (keep_all search o hm l), by simpa using hl.2⟩
    rw [← this]
    exact List.map_id ls
  · intro r hr
    obtain ⟨l, -, rfl⟩ := List.mem_map.1 hr
    exact ⟨_, _, rfl⟩

/-- C84 fails for groups of asymmetric impacts: with the total the table of pairs is a flat list, of which the first two numbers and the largest
one are put into every row, so that all groups (and the total) are shown with the impacts of the first group. -/
theorem c84_pairs_violated (sqrt : V → V) (search : String → String → Bool) (res : Dict String (Hist V)) (poi : String) (o : Opt V)
    (h hp : Hist V) (parms src : List String) (s0 : String) (hg : o.group = true) (ha : o.asym = true) (hk : o.kind ≠ "nonprofiled")
    (hh : Dict.get? res (IoTools.Spec.source true o.kind true) = some h) (hfall : o.kind = "traditional" → Dict.has res "impacts_asym" = true)
    (hsrc : src = s0 :: src.tail) (hax : h.axes = [("impacts", src), ("downUpVar", ["0", "1"]), ("parms", parms)])
    (hhp : Dict.get? res "parms" = some hp) (hpax : hp.axes = [("parms", parms)]) (hpoi : poi ∈ parms) (hnd : src.Nodup)
    (hn : o.normalize = false) (hst : ¬0 < o.stat) (hsc : o.scale ≠ 0) (hf : o.filters = none) (hgr : o.grouping = none) :
    ∃ big, readFitInfo sqrt search res poi o = .ok (((src ++ ["Total"]).filter fun l => decide (l ≠ poi)).map fun l =>
      ⟨l, h.val [0, 1, parms.idxOf poi] * o.scale, h.val [0, 0, parms.idxOf poi] * o.scale, big, none⟩) := by
  have hm : masked o = false := by simp [masked, hgr, hf]
  have hk' : (true && decide (o.kind ≠ "nonprofiled")) = true := by simpa using hk
  let flat := (src.map fun l => [h.val [src.idxOf l, 0, parms.idxOf poi], h.val [src.idxOf l, 1, parms.idxOf poi]]).flatten ++
    [sqrt (hp.var [parms.idxOf poi])]
  have hr : readImpacts sqrt search res poi o.group o.kind (!o.group) (o.group && o.kind ≠ "nonprofiled") o.asym =
      .ok ⟨none, .vec flat, src ++ ["Total"]⟩ := by
    rw [hg, ha, hk', readImpacts_stage sqrt search res poi true o.kind (!true) true true _ hp _ parms src
      ((impactHist_eq res poi true o.kind true h hh (fun _ h => hfall h)).trans (pick_third hax hpoi))
      (values_asym h src hnd _ _) rfl hhp hpax hpoi, if_neg (by simp), if_pos rfl, if_pos rfl]
    rfl
  have e : flat = h.val [0, 0, parms.idxOf poi] :: h.val [0, 1, parms.idxOf poi] :: flat.drop 2 := by
    have : src.idxOf s0 = 0 := by rw [hsrc]; simp
    have h1 : src.map (fun l => [h.val [src.idxOf l, 0, parms.idxOf poi], h.val [src.idxOf l, 1, parms.idxOf poi]]) =
        [h.val [src.idxOf s0, 0, parms.idxOf poi], h.val [src.idxOf s0, 1, parms.idxOf poi]] ::
          src.tail.map (fun l => [h.val [src.idxOf l, 0, parms.idxOf poi], h.val [src.idxOf l, 1, parms.idxOf poi]]) := by
      generalize hF : (fun l => [h.val [src.idxOf l, 0, parms.idxOf poi], h.val [src.idxOf l, 1, parms.idxOf poi]]) = F
      rw [show [h.val [src.idxOf s0, 0, parms.idxOf poi], h.val [src.idxOf s0, 1, parms.idxOf poi]] = F s0 by rw [← hF], ← List.map_cons, ← hsrc]
    have h2 : flat = [h.val [src.idxOf s0, 0, parms.idxOf poi], h.val [src.idxOf s0, 1, parms.idxOf poi]] ++
        ((src.tail.map (fun l => [h.val [src.idxOf l, 0, parms.idxOf poi], h.val [src.idxOf l, 1, parms.idxOf poi]])).flatten ++
          [sqrt (hp.var [parms.idxOf poi])]) := by
      show (src.map _).flatten ++ _ = _
      rw [h1, List.flatten_cons, List.append_assoc]
    rw [h2, this]
    rfl
  obtain ⟨big, hbig⟩ : ∃ big, maxOf ((flat.map (· * o.scale)).map fun x => |x|) = .ok big := by
    rw [e]
    exact ⟨_, rfl⟩
  refine ⟨big, ?_⟩
  have hi : impactsOf sqrt search res poi o ⟨none, .vec flat, src ++ ["Total"]⟩ = .ok (.vec flat) := by
    unfold impactsOf
    rw [hn, if_neg (by simp), ok_map, if_neg fun h => hst h.1]
  unfold readFitInfo
  rw [hr, ok_bind, hi, ok_bind]
  dsimp only
  unfold applyMask
  rw [hm, if_neg (by simp), if_neg (by simp), ok_bind, if_pos ⟨hsc, hn⟩]
  have hcols : impactCols o (src ++ ["Total"]).length (mapArr (· * o.scale) (.vec flat)) =
      .ok ((src ++ ["Total"]).map fun _ => (h.val [0, 1, parms.idxOf poi] * o.scale, h.val [0, 0, parms.idxOf poi] * o.scale, big)) := by
    unfold impactCols
    rw [ha, if_pos rfl]
    have e1 : lastAxis (mapArr (· * o.scale) (.vec flat)) 1 = .ok (.all (h.val [0, 1, parms.idxOf poi] * o.scale)) := by rw [e]; rfl
    have e0 : lastAxis (mapArr (· * o.scale) (.vec flat)) 0 = .ok (.all (h.val [0, 0, parms.idxOf poi] * o.scale)) := by rw [e]; rfl
    rw [e1, ok_bind, assign_all, ok_bind, e0, ok_bind, assign_all, ok_bind]
    show ((maxOf ((flat.map (· * o.scale)).map fun x => |x|)).map Col.all).bind _ = _
    rw [hbig, ok_map, ok_bind, assign_all, ok_map, zip_maps, zip_maps]
  rw [hcols, ok_bind]
  show (Except.ok (List.replicate _ none)).map _ = _
  rw [← List.map_const', ok_map, zip_maps, zipWith_self, filter_rows _ _ _ fun _ => rfl]

/-! ### impacts on bins -/

omit [Field V] [LinearOrder V] in
theorem takeList_labels {α : Type} (P C : List String) (hC : ∀ l ∈ C, l ∈ P) (g : String → α) :
    takeList (P.map g) (C.map fun l => P.idxOf l) = .ok (C.map g) := by
  induction C with
  | nil => rfl
  | cons c C ih =>
    have hc := hC c (by simp)
    rw [List.map_cons]
    unfold takeList
    rw [List.getElem?_map, List.getElem?_eq_getElem (List.idxOf_lt_length_of_mem hc), List.getElem_idxOf]
    show (takeList _ _).map _ = _
    rw [ih fun l hl => hC l (by simp [hl])]
    rfl

theorem bin_stage (sqrt : V → V) (search : String → String → Bool) (sort : List String → List String) (res : Dict String (Hist V)) (o : Opt V)
    (labels : List String) (impacts : List V) (variance : V) (L : List String) (f : String → V) (pulls : Option (Arr V × Arr V × Arr V × Arr V))
    (side : String → Option (V × V × Con V)) (hb : binData sqrt search sort res o labels impacts variance = .ok ⟨pulls, .vec (L.map f), L⟩)
    (hside : sideCols sqrt { o with asym := false, diffPulls := true } (L.filter (keep search o)).length (L.map (keep search o)) pulls =
      .ok ((L.filter (keep search o)).map side)) :
    readBinInfo sqrt search sort res o labels impacts variance = .ok ((L.filter (keep search o)).map fun l =>
      ⟨l, -Spec.size o (sqrt variance) (f l) l, Spec.size o (sqrt variance) (f l) l, |Spec.size o (sqrt variance) (f l) l|, side l⟩) := by
  unfold readBinInfo
  rw [hb, ok_bind]
  dsimp only
  have : (if o.normalize = true then divide (.vec (L.map f)) [sqrt variance] else .ok (.vec (L.map f))) =
      .ok (.vec (L.map fun l => if o.normalize then f l / sqrt variance else f l)) := by
    cases o.normalize
    · simp
    · rw [if_pos rfl]
      show Except.ok (Arr.vec ((L.map f).map (· / sqrt variance))) = _
      rw [List.map_map]
      rfl
  rw [this, ok_bind, impacts_stage, filter_keep, applyMask_vec, ok_bind, scale_stage,
    impactCols_vec { o with asym := false } rfl, ok_bind, hside, ok_map, zip_maps, zipWith_self]

/-- C84.  Impacts of groups on a bin: every group that is asked for with its own impact, and the uncertainty of the bin. -/
theorem c84_bin_groups (sqrt : V → V) (search : String → String → Bool) (sort : List String → List String) (res : Dict String (Hist V)) (o : Opt V)
    (src : List String) (imp : String → V) (variance : V) (hg : o.group = true) (htot : "Total" ∉ src) :
    let x := fun l => Spec.size o (sqrt variance) (if l = "Total" then sqrt variance else imp l) l
    ∃ ls : List String, ls.Sublist (src ++ ["Total"]) ∧ (∀ l, l ∈ ls ↔ l ∈ src ++ ["Total"] ∧ Spec.Asked search o l) ∧
      readBinInfo sqrt search sort res o src (src.map imp) variance = .ok (ls.map fun l => ⟨l, -x l, x l, |x l|, none⟩) := by
  intro x
  refine ⟨_, List.filter_sublist, fun l => by rw [List.mem_filter, keep_iff], bin_stage sqrt search sort res o src _ variance (src ++ ["Total"])
    (fun l => if l = "Total" then sqrt variance else imp l) none (fun _ => none) ?_ ?_⟩
  · unfold binData
    rw [if_pos hg, map_total src htot]
  · show Except.ok _ = _
    rw [List.map_const']

/-- C84.  Relative impacts of groups on a bin: in units of the content of the bin, times the requested scale. -/
theorem c84_bin_relative (sqrt : V → V) (search : String → String → Bool) (sort : List String → List String) (res : Dict String (Hist V)) (o : Opt V)
    (src : List String) (imp : String → V) (variance scale value : V) (hg : o.group = true) (htot : "Total" ∉ src) (hn : o.normalize = false)
    (hst : o.stat ≤ 0) (hs : scale ≠ 0) (hv : value ≠ 0) :
    let x := fun l => scale * (if l = "Total" then sqrt variance else imp l) / value
    ∃ ls : List String, ls.Sublist (src ++ ["Total"]) ∧ (∀ l, l ∈ ls ↔ l ∈ src ++ ["Total"] ∧ Spec.Asked search o l) ∧
      readBinInfo sqrt search sort res { o with scale := binScale true scale value } src (src.map imp) variance =
        .ok (ls.map fun l => ⟨l, -x l, x l, |x l|, none⟩) := by
  intro x
  obtain ⟨ls, h1, h2, h3⟩ := c84_bin_groups sqrt search sort res { o with scale := binScale true scale value } src imp variance hg htot
  refine ⟨ls, h1, h2, ?_⟩
  rw [h3]
  congr 1
  refine List.map_congr_left fun l _ => ?_
  have hb : binScale true scale value ≠ 0 := by
    unfold binScale
    rw [if_pos rfl, mul_one]
    exact div_ne_zero hs hv
  have e : Spec.size { o with scale := binScale true scale value } (sqrt variance) (if l = "Total" then sqrt variance else imp l) l = x l := by
    unfold Spec.size
    rw [if_neg (by rw [hn]; simp), if_neg (fun h => absurd h.1 (not_lt.2 hst)), if_neg hb]
    show _ * binScale true scale value = _
    unfold binScale
    rw [if_pos rfl, mul_one]
    show _ = scale * _ / value
    rw [mul_div_assoc', mul_comm]
  show (⟨l, -Spec.size _ _ _ l, Spec.size _ _ _ l, |Spec.size _ _ _ l|, none⟩ : Row V) = _
  rw [e]

/-- C84.  Impacts of single parameters on a bin: every parameter that is asked for with its own impact, pull and constraint, in whatever
order the labels of the two histograms are brought together. -/
theorem c84_bin_singles [IsStrictOrderedRing V] (sqrt : V → V) (search : String → String → Bool) (sort : List String → List String)
    (hsort : ∀ l, (sort l).Perm l) (res : Dict String (Hist V)) (o : Opt V) (hp hp0 : Hist V) (parms src : List String) (imp : String → V)
    (variance : V) (hg : o.group = false) (hhp : Dict.get? res "parms" = some hp) (hpax : hp.axes = [("parms", parms)])
    (hhp0 : Dict.get? res "parms_prefit" = some hp0) (hpax0 : hp0.axes = [("parms", parms)]) (hnd : parms.Nodup) (hsrc : src.Nodup) :
    let x := fun l => Spec.size o (sqrt variance) (imp l) l
    ∃ ls : List String, ls.Nodup ∧ (∀ l, l ∈ ls ↔ l ∈ src ∧ l ∈ parms ∧ Spec.Asked search o l) ∧
      readBinInfo sqrt search sort res o src (src.map imp) variance =
        .ok (ls.map fun l => ⟨l, -x l, x l, |x l|, some (Spec.side sqrt { o with diffPulls := true } hp hp0 parms l)⟩) := by
  intro x
  have hmem : ∀ l, l ∈ sort (src.filter fun l => decide (l ∈ parms)) ↔ l ∈ src ∧ l ∈ parms := fun l => by
    rw [(hsort _).mem_iff, List.mem_filter, decide_eq_true_eq]
  have hin : ∀ l ∈ sort (src.filter fun l => decide (l ∈ parms)), l ∈ parms := fun l hl => ((hmem l).1 hl).2
  refine ⟨_, ((hsort (src.filter fun l => decide (l ∈ parms))).nodup_iff.2 (hsrc.sublist List.filter_sublist)).sublist List.filter_sublist,
    fun l => by rw [List.mem_filter, keep_iff, hmem, and_assoc],
    bin_stage sqrt search sort res o src _ variance _ imp (some (IoTools.Spec.pullsOf sqrt hp hp0 parms (sort (src.filter fun l => decide (l ∈ parms)))))
      (fun l => some (Spec.side sqrt { o with diffPulls := true } hp hp0 parms l)) ?_ ?_⟩
  · unfold binData
    rw [if_neg (by simp [hg]), readPulls_all sqrt search res false hp parms hhp hpax hnd, ok_bind]
    dsimp only
    rw [readPulls_all sqrt search res true hp0 parms hhp0 hpax0 hnd, ok_bind]
    dsimp only [Arr.take]
    rw [takeList_labels _ _ hin, ok_map, ok_bind, takeList_labels _ _ hin, ok_map, ok_bind, takeList_labels _ _ hin, ok_map, ok_bind,
      takeList_labels _ _ hin, ok_map, ok_bind, takeList_labels _ _ (fun l hl => ((hmem l).1 hl).1), ok_map]
    rfl
  · exact sideCols_vec sqrt search { o with asym := false, diffPulls := true } _ _ _ _ _ _ (conCols_sym sqrt _ rfl _ _ _)

/-! ### rows, channels and files -/

omit [Field V] in
/-- C84.  With a largest number of rows, the rows drawn in ascending order are those with the largest keys. -/
theorem c84_num {α : Type} (key : α → V) (sort : Bool → List α → List α) (num : Nat) (rows : List α) (hnum : num ≠ 0)
    (hp : (sort true rows).Perm rows) (hs : (sort true rows).Pairwise fun a b => key a ≤ key b) :
    ∃ rest, (rest ++ shown sort true num rows).Perm rows ∧ (shown sort true num rows).length = min num rows.length ∧
      ∀ r ∈ rest, ∀ s ∈ shown sort true num rows, key r ≤ key s := by
  unfold shown
  dsimp only
  by_cases h : num < (sort true rows).length
  · rw [if_pos ⟨hnum, h⟩]
    refine ⟨(sort true rows).take ((sort true rows).length - num), ?_, ?_, ?_⟩
    · rw [List.take_append_drop]; exact hp
    · rw [List.length_drop, ← hp.length_eq]; omega
    · rw [← List.take_append_drop ((sort true rows).length - num) (sort true rows), List.pairwise_append] at hs
      exact hs.2.2
  · rw [if_neg fun h' => h h'.2]
    refine ⟨[], hp, ?_, fun _ h => nomatch h⟩
    rw [← hp.length_eq]; omega

omit [Field V] in
/-- C84 fails for rows in descending order: the last rows are kept, so that with a largest number of rows the largest impacts are left
out. -/
theorem c84_num_violated {α : Type} (key : α → V) (sort : Bool → List α → List α) (num : Nat) (rows : List α) (hnum : num ≠ 0)
    (hlt : num < rows.length) (hp : (sort false rows).Perm rows) (hs : (sort false rows).Pairwise fun a b => key b ≤ key a) :
    ∃ rest, rest ≠ [] ∧ (rest ++ shown sort false num rows).Perm rows ∧ ∀ r ∈ rest, ∀ s ∈ shown sort false num rows, key s ≤ key r := by
  unfold shown
  dsimp only
  have h : num < (sort false rows).length := by rw [hp.length_eq]; exact hlt
  rw [if_pos ⟨hnum, h⟩]
  refine ⟨(sort false rows).take ((sort false rows).length - num), ?_, ?_, ?_⟩
  · intro he
    have := congrArg List.length he
    rw [List.length_take, List.length_nil] at this
    omega
  · rw [List.take_append_drop]; exact hp
  · rw [← List.take_append_drop ((sort false rows).length - num) (sort false rows), List.pairwise_append] at hs
    exact hs.2.2

/-- `p in l` for strings is being a part of it -/
theorem contains_iff (p : List Char) : ∀ l, SelText.contains p l = true ↔ p <:+: l
  | [] => by
    rw [SelText.contains, List.isPrefixOf_iff_prefix]
    simp
  | c :: l => by
    rw [SelText.contains, Bool.or_eq_true, List.isPrefixOf_iff_prefix, contains_iff p l, List.infix_cons_iff]

/-- C84, the part that holds of the selection of a channel: without a request every channel is plotted, a requested channel is plotted, and a
channel that is not a part of the requested name is not.  (Missing: channels that are, see `c84_channel_violated`.) -/
theorem c84_channel_partial (c r : List Char) (hr : r ≠ []) :
    wanted none c = true ∧ wanted (some r) r = true ∧ (¬c <:+: r → wanted (some r) c = false) := by
  refine ⟨rfl, ?_, fun h => ?_⟩
  · simp [wanted, (contains_iff r r).2 (List.infix_refl r)]
  · have : SelText.contains c r = false := by
      rw [Bool.eq_false_iff]
      exact fun h' => h ((contains_iff c r).1 h')
    simp [wanted, hr, this]

/-- C84 fails for channels whose name is a part of the requested one: they are plotted too. -/
theorem c84_channel_violated : wanted (some "ch10".toList) "ch1".toList = true ∧ wanted (some "ch10".toList) "ch10".toList = true ∧
    wanted (some "ch10".toList) "ch0".toList = false := by decide +kernel

/-- C84 fails for the files of impacts on bins: the name does not contain the channel, so that plots of several channels with the same bins are
written to the same files. -/
theorem c84_file_violated (impactsName fittype : String) (group noPulls : Bool) (c d : String) (bins bins' : List (List String)) (b : List String)
    (h : b ∈ bins) (h' : b ∈ bins') :
    ∃ f, (c, b, f) ∈ plots impactsName fittype group noPulls none [(c, bins), (d, bins')] ∧
      (d, b, f) ∈ plots impactsName fittype group noPulls none [(c, bins), (d, bins')] := by
  refine ⟨fileName impactsName fittype group noPulls b, ?_, ?_⟩
  · simp [plots, wanted, h]
  · simp [plots, wanted, h']

/-! ## cases -/

namespace Ex84

def parms : List String := ["mu", "a", "b"]

def res : Dict String (Hist ℚ) :=
  [("parms", ⟨[("parms", parms)], fun ix => (ix.getD 0 0 : ℚ), fun ix => if ix = [0] then 4 else 1 / 2⟩),
   ("parms_prefit", ⟨[("parms", parms)], fun _ => 1, fun _ => 1⟩),
   ("impacts", ⟨[("parms", ["mu"]), ("impacts", parms)], fun ix => 10 * (ix.getD 1 0 : ℚ), fun _ => 0⟩),
   ("impacts_grouped", ⟨[("parms", ["mu"]), ("impacts", ["stat", "g"])], fun ix => (ix.getD 1 0 : ℚ) + 2, fun _ => 0⟩),
   ("global_impacts_asym", ⟨[("impacts", parms), ("downUpVar", ["0", "1"]), ("parms", parms)], fun ix => (ix.getD 0 0 : ℚ) - ix.getD 1 0, fun _ => 0⟩),
   ("global_impacts_asym_grouped", ⟨[("impacts", ["stat", "g"]), ("downUpVar", ["0", "1"]), ("parms", parms)],
     fun ix => 3 * (ix.getD 0 0 : ℚ) - ix.getD 1 0, fun _ => 0⟩)]

/-- a case of `c84_groups`, with the square root replaced by the identity: only one group is asked for, in units of the total -/
example : readFitInfo id (fun p l => p == l) res "mu"
    { group := true, kind := "traditional", stat := 0, scale := 1, normalize := true, filters := some ["g"] } = .ok [⟨"g", -3 / 4, 3 / 4, 3 / 4, none⟩] := by decide +kernel

/-- a case of `c84_singles` -/
example : readFitInfo id (fun p l => p == l) res "mu" { kind := "traditional", stat := 0, scale := 2 } =
    .ok [⟨"a", -20, 20, 20, some (1, 0, .sym (1 / 2) 0)⟩, ⟨"b", -40, 40, 40, some (1, 1, .sym (1 / 2) (4 / 3))⟩] := by decide +kernel

/-- a case of `c84_constraint_violated`: the upper constraint of `mu` at `a` and `b` -/
example : readFitInfo id (fun p l => p == l) res "mu" { kind := "global", asym := true, stat := 0, scale := 1 } =
    .ok [⟨"a", 0, 1, 1, some (1, 0, .asym (-1 / 2) 4)⟩, ⟨"b", 1, 2, 2, some (1, 1, .asym (-1 / 2) 4)⟩] := by decide +kernel

/-- a case of `c84_pairs_violated`: `g` has the impacts 3 and 2 -/
example : readFitInfo id (fun p l => p == l) res "mu" { group := true, kind := "global", asym := true, stat := 0, scale := 1 } =
    .ok [⟨"stat", -1, 0, 4, none⟩, ⟨"g", -1, 0, 4, none⟩, ⟨"Total", -1, 0, 4, none⟩] := by decide +kernel

/-- a case of `c84_bin_singles`: the order of the labels is reversed -/
example : readBinInfo id (fun p l => p == l) List.reverse res { kind := "global", stat := 0, scale := 1, normalize := true } ["a", "b", "c"] [6, 8, 9] 2 =
    .ok [⟨"b", -4, 4, 4, some (1, 1, .sym (1 / 2) (4 / 3))⟩, ⟨"a", -3, 3, 3, some (1, 0, .sym (1 / 2) 0)⟩] := by decide +kernel

/-- a case of `c84_bin_relative`: half of the bin -/
example : readBinInfo id (fun p l => p == l) List.reverse res { group := true, kind := "global", stat := 0, scale := binScale true 100 (8 : ℚ) } ["g"] [4] 6 =
    .ok [⟨"g", -50, 50, 50, none⟩, ⟨"Total", -75, 75, 75, none⟩] := by decide +kernel

end Ex84

end Verif.ImpactFrame
