import Verif.Lemmas.BatchedLoop

/-!
C12: a systematic histogram with extra axes books what a loop over its slices books.
-/

namespace Verif.Batched

set_option linter.unusedSectionVars false

open Verif.Logk Verif.Writer Verif.Writer.M Verif.Grid

/-! ### Specification -/

/-- the axes that are not sliced -/
def Spec.others (axes : List Axis) (extra : List String) : List Axis := axes.filter fun a => a.name ∉ extra.map some

/-- the sliced axes -/
def Spec.extraAxes (axes : List Axis) (extra : List String) : List Axis :=
  extra.filterMap fun n => axes.find? fun a => a.name == some n

/-- the bin of the full histogram that belongs to the bins `i` of the extra axes (in the order `extra`) and the bins `j` of
the other axes, counted with underflow bins; `j` is counted with underflow bins if `flow` -/
def Spec.fullIndex (axes : List Axis) (extra : List String) (flow : Bool) (i j : List Nat) : List Nat :=
  axes.map fun a =>
    if a.name ∈ extra.map some then i.getD (extra.idxOf (a.name.getD "")) 0 + a.off
    else j.getD (((Spec.others axes extra).map (·.name)).idxOf a.name) 0 + if flow then 0 else a.off

/-- the content of a bin; bins that are not listed are empty -/
def Spec.content {V : Type} [Zero V] (axes : List Axis) (flat : List (Nat × FVal V)) (m : List Nat) : V :=
  ((flat.find? fun e => e.1 == Writer.ravel (dims true axes) m).bind fun e => e.2.toFin?).getD 0

/-- `name_label_label...` -/
def Spec.sysName (name : String) (extra : List Axis) (i : List Nat) : String :=
  "_".intercalate (name :: List.zipWith (fun (a : Axis) k => match a.cats with
    | some l => l.getD k ""
    | none => toString k) extra i)

/-- a histogram with named axes whose listed bins exist and are listed once -/
structure Spec.proper {V : Type} (axes : List Axis) (extra : List String) (flat : List (Nat × FVal V)) : Prop where
  named : Named axes extra
  range : ∀ e ∈ flat, e.1 < Writer.prod (dims true axes)
  once : (flat.map (·.1)).Nodup

/-- numpy's sort by systematic: some permutation that is sorted -/
def Spec.sorts {α : Type} (sort : List (Nat × α) → List (Nat × α)) : Prop :=
  ∀ l, (sort l).Perm l ∧ (sort l).Pairwise fun a b => a.1 ≤ b.1

/-! ### Positions -/

section
variable {axes : List Axis} {extra : List String}

theorem map_getD_idxOf {α : Type} [BEq α] [LawfulBEq α] {l : List α} (hl : l.Nodup) {i : List Nat} (hi : i.length = l.length) :
    (l.map fun n => i.getD (l.idxOf n) 0) = i := by
  refine List.ext_getElem (by simp [hi]) fun k h1 h2 => ?_
  have hk : k < l.length := by simpa using h1
  rw [List.getElem_map, hl.idxOf_getElem k hk, List.getD_eq_getElem?_getD, List.getElem?_eq_getElem h2]
  rfl

theorem fullIndex_getD {flow : Bool} {i j : List Nat} {p : Nat} (hp : p < axes.length) :
    (Spec.fullIndex axes extra flow i j).getD p 0 =
      if (axisAt axes p).name ∈ extra.map some then
        i.getD (extra.idxOf ((axisAt axes p).name.getD "")) 0 + (axisAt axes p).off
      else j.getD (((axes.filter fun a => a.name ∉ extra.map some).map (·.name)).idxOf (axisAt axes p).name) 0 +
        if flow then 0 else (axisAt axes p).off := by
  unfold Spec.fullIndex
  rw [List.getD_eq_getElem?_getD, List.getElem?_map, List.getElem?_eq_getElem hp, axisAt_eq hp]
  rfl

theorem fullIndex_extra (h : Named axes extra) {flow : Bool} {i j : List Nat} {n : String} (hn : n ∈ extra) :
    (Spec.fullIndex axes extra flow i j).getD (pos axes n) 0 =
      i.getD (extra.idxOf n) 0 + (axisAt axes (pos axes n)).off := by
  rw [fullIndex_getD (pos_lt h hn), axisAt_pos h hn, if_pos (List.mem_map.2 ⟨n, hn, rfl⟩)]
  rfl

theorem fullIndex_kept (h : Named axes extra) {flow : Bool} {i j : List Nat} {p : Nat} (hp : p ∈ kept axes extra) :
    (Spec.fullIndex axes extra flow i j).getD p 0 =
      j.getD (((kept axes extra).map fun p => (axisAt axes p).name).idxOf (axisAt axes p).name) 0 +
        if flow then 0 else (axisAt axes p).off := by
  have h1 := kept_lt hp
  have h2 : p ∉ extra.map (pos axes) := by simpa using (List.mem_filter.1 hp).2
  rw [fullIndex_getD h1, if_neg ((kept_iff h h1).2 h2), keep_eq h, List.map_map]
  rfl

theorem kept_names_nodup (h : Named axes extra) : ((kept axes extra).map fun p => (axisAt axes p).name).Nodup := by
  have h1 : ((kept axes extra).map fun p => (axisAt axes p).name) =
      (axes.filter fun a => a.name ∉ extra.map some).map (·.name) := by
    rw [keep_eq h, List.map_map]; rfl
  rw [h1]
  exact h.nodup.sublist (List.filter_sublist.map _)

theorem kept_map_getD (h : Named axes extra) {j : List Nat} (hj : j.length = (kept axes extra).length) :
    ((kept axes extra).map fun p =>
      j.getD (((kept axes extra).map fun p => (axisAt axes p).name).idxOf (axisAt axes p).name) 0) = j := by
  have := map_getD_idxOf (kept_names_nodup h) (i := j) (by simpa using hj)
  rw [List.map_map] at this
  exact this

variable {V : Type} {flow : Bool} {i j : List Nat}

theorem extraSizes_length : (extraSizes axes extra).length = extra.length := by simp [extraSizes]

theorem dims_kept_length : (dims flow (keptAxes axes extra)).length = (kept axes extra).length := by
  simp [dims, keptAxes]

theorem getD_lt_of_grid {d m : List Nat} (h : m ∈ grid d) {k : Nat} (hk : k < d.length) : m.getD k 0 < d.getD k 0 := by
  have h' := mem_grid.1 h
  have hl := length_of_mem_grid h
  have h1 : k < m.length := by omega
  have := h'.get h1 hk
  simpa [List.getD_eq_getElem?_getD, h1, hk] using this

/-- the full index of an extra axis is a regular bin -/
theorem fullIndex_valid (h : Named axes extra) (hi : i ∈ grid (extraSizes axes extra)) (x : FVal V) :
    valid axes (extra.map (pos axes)) ⟨Spec.fullIndex axes extra flow i j, x⟩ = true := by
  refine valid_iff.2 fun p hp => ?_
  obtain ⟨n, hn, rfl⟩ := List.mem_map.1 hp
  dsimp only
  rw [fullIndex_extra h hn]
  have hk : extra.idxOf n < extra.length := List.idxOf_lt_length_iff.2 hn
  have h1 := getD_lt_of_grid hi (k := extra.idxOf n) (by rw [extraSizes_length]; exact hk)
  have h2 : (extraSizes axes extra).getD (extra.idxOf n) 0 = (axisAt axes (pos axes n)).size := by
    unfold extraSizes
    rw [List.map_map, List.getD_eq_getElem?_getD, List.getElem?_map, List.getElem?_eq_getElem hk, List.getElem_idxOf]
    rfl
  omega

theorem kept_getD_lt (hj : j ∈ grid (dims flow (keptAxes axes extra))) (h : Named axes extra) {p : Nat}
    (hp : p ∈ kept axes extra) :
    j.getD (((kept axes extra).map fun p => (axisAt axes p).name).idxOf (axisAt axes p).name) 0 <
      if flow then (axisAt axes p).extent else (axisAt axes p).size := by
  obtain ⟨k, hk, rfl⟩ := List.getElem_of_mem hp
  have h1 : ((kept axes extra).map fun p => (axisAt axes p).name).idxOf (axisAt axes ((kept axes extra)[k])).name = k := by
    have := (kept_names_nodup h).idxOf_getElem k (by simpa using hk)
    rwa [List.getElem_map] at this
  rw [h1]
  have h2 := getD_lt_of_grid hj (k := k) (by rw [dims_kept_length]; exact hk)
  have h3 : (dims flow (keptAxes axes extra)).getD k 0 =
      if flow then (axisAt axes ((kept axes extra)[k])).extent else (axisAt axes ((kept axes extra)[k])).size := by
    unfold dims keptAxes
    rw [List.map_map, List.getD_eq_getElem?_getD, List.getElem?_map, List.getElem?_eq_getElem hk]
    cases flow <;> rfl
  rwa [h3] at h2

theorem fullIndex_valid_kept (h : Named axes extra) (hj : j ∈ grid (dims false (keptAxes axes extra))) (x : FVal V) :
    valid axes (kept axes extra) ⟨Spec.fullIndex axes extra false i j, x⟩ = true := by
  refine valid_iff.2 fun p hp => ?_
  dsimp only
  rw [fullIndex_kept h hp]
  have := kept_getD_lt hj h hp
  simp only [Bool.false_eq_true, if_false] at this ⊢
  omega

theorem fullIndex_mem (h : Named axes extra) (hi : i ∈ grid (extraSizes axes extra))
    (hj : j ∈ grid (dims flow (keptAxes axes extra))) : Spec.fullIndex axes extra flow i j ∈ grid (dims true axes) := by
  rw [mem_grid, List.forall₂_iff_get]
  have hlen : (Spec.fullIndex axes extra flow i j).length = (dims true axes).length := by simp [Spec.fullIndex, dims]
  refine ⟨hlen, fun p h1 h2 => ?_⟩
  have hp : p < axes.length := by simpa [dims] using h2
  have e1 : (Spec.fullIndex axes extra flow i j).get ⟨p, h1⟩ = (Spec.fullIndex axes extra flow i j).getD p 0 := by
    simp [List.getD_eq_getElem?_getD, h1]
  have e2 : (dims true axes).get ⟨p, h2⟩ = (axisAt axes p).extent := by
    rw [axisAt_eq hp]
    simp [dims]
  rw [e1, e2]
  have hext : (axisAt axes p).off + (axisAt axes p).size ≤ (axisAt axes p).extent := by
    unfold Axis.extent Axis.off
    omega
  by_cases hk : p ∈ kept axes extra
  · rw [fullIndex_kept h hk]
    have := kept_getD_lt hj h hk
    cases flow with
    | true => simpa using this
    | false =>
      simp only [Bool.false_eq_true, if_false] at this ⊢
      omega
  · have hpe : p ∈ extra.map (pos axes) := by
      by_contra hc
      exact hk (List.mem_filter.2 ⟨List.mem_range.2 hp, by simpa using hc⟩)
    have hv := valid_iff.1 (fullIndex_valid (V := Unit) (flow := flow) (j := j) h hi .nan) p hpe
    dsimp only at hv
    omega

theorem place_fullIndex (h : Named axes extra) (hi : i ∈ grid (extraSizes axes extra))
    (hj : j ∈ grid (dims flow (keptAxes axes extra))) (x : FVal V) :
    placeOf flow axes extra ⟨Spec.fullIndex axes extra flow i j, x⟩ =
      (Writer.ravel (extraSizes axes extra) i, Writer.ravel (dims flow (keptAxes axes extra)) j, x) := by
  have hil : i.length = extra.length := (length_of_mem_grid hi).trans extraSizes_length
  have hjl : j.length = (kept axes extra).length := (length_of_mem_grid hj).trans dims_kept_length
  have h1 : regular axes (extra.map (pos axes)) (⟨Spec.fullIndex axes extra flow i j, x⟩ : MEntry V) = i := by
    unfold regular
    rw [List.map_map]
    refine Eq.trans (List.map_congr_left fun n hn => ?_) (map_getD_idxOf h.distinct hil)
    dsimp only [Function.comp]
    rw [fullIndex_extra h hn]
    omega
  unfold placeOf
  rw [h1]
  congr 2
  cases flow with
  | true =>
    rw [if_pos rfl]
    congr 1
    refine Eq.trans (List.map_congr_left fun p hp => ?_) (kept_map_getD h hjl)
    dsimp only
    rw [fullIndex_kept h hp]
    simp
  | false =>
    rw [if_neg (by simp)]
    congr 1
    unfold regular
    refine Eq.trans (List.map_congr_left fun p hp => ?_) (kept_map_getD h hjl)
    dsimp only
    rw [fullIndex_kept h hp]
    simp

/-- an entry is at the place of a combination of bins iff it is at the corresponding bin of the histogram -/
theorem placed_iff {flat : List (Nat × FVal V)} (hp : Spec.proper axes extra flat)
    (hi : i ∈ grid (extraSizes axes extra)) (hj : j ∈ grid (dims flow (keptAxes axes extra))) (x : FVal V) :
    (Writer.ravel (extraSizes axes extra) i, Writer.ravel (dims flow (keptAxes axes extra)) j, x) ∈ placed flow axes extra flat ↔
      (Writer.ravel (dims true axes) (Spec.fullIndex axes extra flow i j), x) ∈ flat := by
  have hM := fullIndex_mem hp.named hi hj
  have hv : valid axes (if flow then extra.map (pos axes) else extra.map (pos axes) ++ kept axes extra)
      (⟨Spec.fullIndex axes extra flow i j, x⟩ : MEntry V) = true := by
    cases flow with
    | true => exact fullIndex_valid hp.named hi x
    | false =>
      unfold valid
      rw [if_neg (by simp), List.all_append]
      exact Bool.and_eq_true_iff.2 ⟨fullIndex_valid hp.named hi x, fullIndex_valid_kept hp.named hj x⟩
  constructor
  · intro h
    obtain ⟨e, he, hpe⟩ := List.mem_map.1 h
    obtain ⟨he1, he2⟩ := List.mem_filter.1 he
    have hpl := place_fullIndex hp.named hi hj x
    have hx : e.val = x := congrArg (·.2.2) hpe
    have hidx : e.idx = Spec.fullIndex axes extra flow i j := by
      refine place_inj (flow := flow) (e := e) (e' := ⟨Spec.fullIndex axes extra flow i j, x⟩)
        (entries_mem hp.range he1) hM he2 hv ?_ ?_
      · rw [hpl, hpe]
      · rw [hpl, hpe]
    obtain ⟨y, hy, rfl⟩ := List.mem_map.1 he1
    dsimp only at hidx hx
    rw [← hidx, ravel_unravel (hp.range y hy), ← hx]
    exact hy
  · intro h
    refine List.mem_map.2 ⟨⟨Spec.fullIndex axes extra flow i j, x⟩, List.mem_filter.2 ⟨?_, hv⟩, place_fullIndex hp.named hi hj x⟩
    refine List.mem_map.2 ⟨_, h, ?_⟩
    dsimp only
    rw [unravel_ravel hM]

theorem diffAt_content [Field V] [LinearOrder V] {flat : List (Nat × FVal V)} (hp : Spec.proper axes extra flat)
    (hi : i ∈ grid (extraSizes axes extra)) (hj : j ∈ grid (dims flow (keptAxes axes extra))) :
    diffAt (placed flow axes extra flat) (Writer.ravel (extraSizes axes extra) i)
      (Writer.ravel (dims flow (keptAxes axes extra)) j) = Spec.content axes flat (Spec.fullIndex axes extra flow i j) := by
  have hP := placed_nodup (extra := extra) hp.range hp.once flow
  have hiff := placed_iff (flow := flow) hp hi hj
  unfold Spec.content
  cases hf : flat.find? fun e => e.1 == Writer.ravel (dims true axes) (Spec.fullIndex axes extra flow i j) with
  | some y =>
    have h1 := List.mem_of_find?_eq_some hf
    have h2 : y.1 = Writer.ravel (dims true axes) (Spec.fullIndex axes extra flow i j) := by simpa using List.find?_some hf
    have h3 := (hiff y.2).2 (by rw [← h2]; exact h1)
    unfold diffAt
    cases hg : (placed flow axes extra flat).find? fun e => e.1 == Writer.ravel (extraSizes axes extra) i &&
        e.2.1 == Writer.ravel (dims flow (keptAxes axes extra)) j with
    | none =>
      have := List.find?_eq_none.1 hg _ h3
      simp at this
    | some z =>
      have h4 := List.mem_of_find?_eq_some hg
      have h5 : z.1 = Writer.ravel (extraSizes axes extra) i ∧ z.2.1 = Writer.ravel (dims flow (keptAxes axes extra)) j := by
        simpa using List.find?_some hg
      have : z = (_, _, y.2) := List.inj_on_of_nodup_map hP h4 h3 (by simp [h5.1, h5.2])
      rw [this]; rfl
  | none =>
    unfold diffAt
    cases hg : (placed flow axes extra flat).find? fun e => e.1 == Writer.ravel (extraSizes axes extra) i &&
        e.2.1 == Writer.ravel (dims flow (keptAxes axes extra)) j with
    | none => rfl
    | some z =>
      have h4 := List.mem_of_find?_eq_some hg
      have h5 : z.1 = Writer.ravel (extraSizes axes extra) i ∧ z.2.1 = Writer.ravel (dims flow (keptAxes axes extra)) j := by
        simpa using List.find?_some hg
      have h6 := (hiff z.2.2).1 (by rw [← h5.1, ← h5.2]; exact h4)
      have := List.find?_eq_none.1 hf _ h6
      simp at this

end

section
variable {V : Type} [Field V] [LinearOrder V]

theorem mem_setAdd' {l : List String} {n m : String} : m ∈ setAdd l n ↔ m ∈ l ∨ m = n := by
  unfold setAdd
  split
  · rename_i h
    constructor
    · exact Or.inl
    · rintro (h' | rfl)
      · exact h'
      · simpa using h
  · simp

theorem insertAll_at {proc chan : String} {o : SystOpts} : ∀ {es : List (String × LogkE V)} {s s' : State V},
    (es.map (·.1)).Nodup → forEach (fun e : String × LogkE V => insertOne proc chan e.1 e.2 o) es s = (s', .ok ()) →
    (∀ x ∈ es, Spec.at3 s'.logkavg chan proc x.1 = some x.2) ∧
    (∀ c p m, (¬ (c = chan ∧ p = proc) ∨ m ∉ es.map (·.1)) → Spec.at3 s'.logkavg c p m = Spec.at3 s.logkavg c p m) ∧
    (∀ m, m ∈ s'.standard ↔ m ∈ s.standard ∨ (o.constrained = true ∧ m ∈ es.map (·.1))) ∧
    (∀ m, m ∈ s'.noConstraint ↔ m ∈ s.noConstraint ∨ (o.constrained = false ∧ m ∈ es.map (·.1)))
  | [], s, s', _, h => by
    cases h
    simp
  | x :: es, s, s', hn, h => by
    obtain ⟨s1, u, h1, h2⟩ := bind_ok (m := insertOne proc chan x.1 x.2 o)
      (f := fun _ => forEach (fun e : String × LogkE V => insertOne proc chan e.1 e.2 o) es) h
    rw [List.map_cons, List.nodup_cons] at hn
    obtain ⟨a1, a2, a3, a4⟩ := insertAll_at hn.2 h2
    obtain ⟨d, hd, rfl⟩ := insertOne_ok.1 h1
    have hat := upd3_at hd
    refine ⟨fun y hy => ?_, fun c p m hm => ?_, fun m => ?_, fun m => ?_⟩
    · rcases List.mem_cons.1 hy with rfl | hy
      · rw [a2 _ _ _ (Or.inr hn.1)]
        show Spec.at3 d _ _ _ = _
        rw [hat, if_pos ⟨rfl, rfl, rfl⟩]
      · exact a1 y hy
    · have hm' : ¬ (c = chan ∧ p = proc) ∨ m ∉ es.map (·.1) := hm.imp id fun h h' => h (by simp [h'])
      rw [a2 c p m hm']
      show Spec.at3 d _ _ _ = _
      rw [hat, if_neg]
      rintro ⟨rfl, rfl, rfl⟩
      rcases hm with h | h
      · exact h ⟨rfl, rfl⟩
      · exact h (by simp)
    · rw [a3]
      show m ∈ (if !o.constrained then s.standard else setAdd s.standard x.1) ∨ _ ↔ _
      cases o.constrained with
      | true => simp [mem_setAdd', or_assoc]
      | false => simp
    · rw [a4]
      show m ∈ (if !o.constrained then setAdd s.noConstraint x.1 else s.noConstraint) ∨ _ ↔ _
      cases o.constrained with
      | true => simp
      | false => simp [mem_setAdd', or_assoc]

/-! ### The theorems -/

/-- What the writer has to know before a systematic with extra axes is added: the channel, with the names of the other axes of
the histogram in the same order, and the process, with a template of the size of the histogram. -/
structure Spec.ready (cfg : Cfg V) (s : State V) (axes : List Axis) (extra : List String) (chan proc : String) (c : Chan)
    (norm : Norm V) : Prop where
  hasChan : s.channels.get? chan = some c
  names : c.axes.map (·.name) = (Spec.others axes extra).map (·.name)
  hasNorm : Spec.at2 s.norm chan proc = some norm
  table : (Spec.at2 s.logkavg chan proc).isSome
  sized : Spec.sized (Writer.prod (dims c.flow (Spec.others axes extra))) norm
  sparse : ∀ sz l, norm = .csr sz l → cfg.sparse = true

variable {cfg : Cfg V} {sort : List (Nat × Nat × V) → List (Nat × Nat × V)} {axes : List Axis} {flat : List (Nat × FVal V)}
  {name proc chan : String} {kfac : V} {extra : List String} {symm : Symm} {o : SystOpts} {s s' : State V} {c : Chan}
  {norm : Norm V}

theorem keptAxes_eq (h : Named axes extra) : Spec.others axes extra = keptAxes axes extra := keep_eq h

theorem extraAxes_eq (h : Named axes extra) :
    (extra.map fun n => axisAt axes (pos axes n)) = Spec.extraAxes axes extra := by
  unfold Spec.extraAxes
  have key : ∀ n ∈ extra, axes.find? (fun a => a.name == some n) = some (axisAt axes (pos axes n)) := by
    intro n hn
    cases hf : axes.find? fun a => a.name == some n with
    | none =>
      obtain ⟨a, ha, e⟩ := List.mem_map.1 (h.sub n hn)
      have := List.find?_eq_none.1 hf a ha
      simp [e] at this
    | some a =>
      have h1 := List.mem_of_find?_eq_some hf
      have h2 : a.name = some n := by simpa using List.find?_some hf
      have h3 : axisAt axes (pos axes n) ∈ axes := by rw [axisAt_eq (pos_lt h hn)]; exact List.getElem_mem _
      exact congrArg some (List.inj_on_of_nodup_map h.nodup h1 h3 (h2.trans (axisAt_pos h hn).symm))
  clear h
  induction extra with
  | nil => rfl
  | cons n l ih =>
    rw [List.filterMap_cons, key n (by simp), List.map_cons, ih fun m hm => key m (by simp [hm])]

theorem placed_bin (hp : Spec.proper axes extra flat) (flow : Bool) :
    ∀ e ∈ placed flow axes extra flat, e.2.1 < Writer.prod (dims flow (keptAxes axes extra)) := by
  intro e he
  obtain ⟨m, hm, rfl⟩ := List.mem_map.1 he
  obtain ⟨h1, h2⟩ := List.mem_filter.1 hm
  refine bin_lt (entries_mem hp.range h1) fun hf => ?_
  subst hf
  rw [if_neg (by simp)] at h2
  exact valid_iff.2 fun p hpk => valid_iff.1 h2 p (List.mem_append_right _ hpk)

theorem placed_syst (flow : Bool) : ∀ e ∈ placed flow axes extra flat, e.1 < Writer.prod (extraSizes axes extra) := by
  intro e he
  obtain ⟨m, hm, rfl⟩ := List.mem_map.1 he
  have h2 := (List.mem_filter.1 hm).2
  refine syst_lt (flow := flow) ?_
  cases flow with
  | true => exact h2
  | false =>
    rw [if_neg (by simp)] at h2
    exact valid_iff.2 fun p hpk => valid_iff.1 h2 p (List.mem_append_left _ hpk)

theorem slices_eq (hnamed : Named axes extra) : getSlices axes name extra (.single (.sparseHist axes flat)) =
    .ok ((List.range (Writer.prod (extraSizes axes extra))).map fun i =>
      (subName name (extra.map fun n => axisAt axes (pos axes n)) i,
        .single (.sparseHist (keptAxes axes extra) (sliceEntries axes extra flat i)))) := by
  have r2 : (axes.any fun a => a.name.isNone) = false := by
    rw [List.any_eq_false]
    intro a ha
    have := hnamed.names a ha
    simpa [Option.isSome_iff_ne_none] using this
  have r3 : (extra.any fun n => decide (some n ∉ axes.map (·.name))) = false := by
    rw [List.any_eq_false]
    intro n hn
    simpa using hnamed.sub n hn
  have e : (extra.map fun n => axisAt axes (pos axes n)).map (·.size) = extraSizes axes extra := by
    unfold extraSizes
    rw [List.map_map, List.map_map]
    rfl
  unfold getSlices
  dsimp only
  have hso : slicesOf (extraSizes axes extra) extra (keptAxes axes extra) (HIn.sparseHist axes flat) =
      .ok ((List.range (Writer.prod (extraSizes axes extra))).map fun s =>
        .sparseHist (keptAxes axes extra) (sliceEntries axes extra flat s)) := by
    show (if _ then _ else if _ then _ else _) = _
    rw [r2, r3, sparseSlices_eq]
    rfl
  have hk : (axes.filter fun a => a.name ∉ extra.map some) = keptAxes axes extra := keep_eq hnamed
  rw [e, hk, hso]
  dsimp only [bind, Except.bind]
  congr 1
  rw [List.map_map]
  refine List.ext_getElem (by simp) fun i h1 h2 => ?_
  simp

/-- single histograms without extra axes -/
theorem axes_single {keep : List Axis} {F : List (Nat × FVal V)} {nm : String} (hsc : s.channels.get? chan = some c)
    (hlen : keep.length = c.axes.length) :
    addSystematicAxes cfg sort (.single (.sparseHist keep F)) nm proc chan kfac true symm false true none o s =
      addSystematic cfg (.single (.sparseHist keep F)) nm proc chan kfac true symm false true o s := by
  unfold addSystematicAxes
  rw [read_bind]
  have : detectExtra s.channels (.sparseHist keep F) chan none = .ok none := by
    unfold detectExtra axes?
    simp [hsc, hlen]
  dsimp only
  rw [this]
  rfl

theorem call_batched {systAxes : Option (List String)}
    (hx : detectExtra s.channels (.sparseHist axes flat) chan systAxes = .ok (some extra)) :
    addSystematicAxes cfg sort (.single (.sparseHist axes flat)) name proc chan kfac true symm false true systAxes o s =
      addBatched cfg sort axes flat name proc chan kfac extra o s := by
  unfold addSystematicAxes
  rw [read_bind]
  dsimp only
  rw [hx]
  rfl

theorem loop_and_batched [IsStrictOrderedRing V] (hN : cfg.num.log 1 = 0) (ht : cfg.systType ≠ .other)
    (hsort : Spec.sorts sort) (hp : Spec.proper axes extra flat) (hr : Spec.ready cfg s axes extra chan proc c norm)
    {slices : List (String × SystIn V)} (hsl : getSlices axes name extra (.single (.sparseHist axes flat)) = .ok slices)
    (hloop : forEach (fun e : String × SystIn V =>
      addSystematicAxes cfg sort e.2 e.1 proc chan kfac true symm false true none o) slices s = (s', .ok ())) :
    ∃ es es' : List (String × LogkE V),
      forEach (fun e : String × LogkE V => insertOne proc chan e.1 e.2 o) es s = (s', .ok ()) ∧
      addBatched cfg sort axes flat name proc chan kfac extra o s =
        forEach (fun e : String × LogkE V => insertOne proc chan e.1 e.2 o) es' s ∧
      List.Forall₂ (fun a b => a.1 = b.1 ∧ ∃ size w, Spec.holds cfg.sparse size w a.2 ∧ Spec.holds cfg.sparse size w b.2) es es' := by
  have hP := placed_nodup (extra := extra) hp.range hp.once c.flow
  have hb := placed_bin hp c.flow
  have hsz := hr.sized
  rw [keptAxes_eq hp.named] at hsz
  have hlen : (keptAxes axes extra).length = c.axes.length := by
    have := congrArg List.length hr.names
    rw [keptAxes_eq hp.named] at this
    simpa using this.symm
  rw [slices_eq hp.named] at hsl
  cases hsl
  obtain ⟨hfin, es, hes, hrun⟩ := loop_entries (cfg := cfg) (kfac := kfac) (c := c) (proc := proc) (chan := chan)
    (symm := symm) (o := o) ht hsz hr.sparse hP hb (F := sliceEntries axes extra flat) (fun i => slice_csr hp.range c.flow i)
    (subName name (extra.map fun n => axisAt axes (pos axes n)))
    (fun nm F s hsc => axes_single hsc hlen) hr.hasNorm hr.hasChan hloop
  have hidx := idx_kept hp.named hr.names
  obtain ⟨l, hl⟩ := batched_succeeds (cfg := cfg) (kfac := kfac) (fun l => (hsort l).1) ht hidx hsz hb
    (fun i b x hx hnz => hfin i (List.mem_range.2 (placed_syst c.flow _ hx)) b x hx hnz)
  refine ⟨es, _, hrun, addBatched_eq hp.named hr.hasChan hr.hasNorm hr.table hr.names hl, ?_⟩
  have hL := batched_lists hN (fun l => (hsort l).1) (fun l => (hsort l).2) ht hidx hsz hP hb hl
  rw [List.forall₂_map_right_iff]
  have := hes.flip
  refine List.Forall₂.imp ?_ this
  rintro x i ⟨h1, h2⟩
  exact ⟨h1, _, _, h2, stored_holds (hL i) cfg.sparse⟩

/-- C12: if adding the slices of a `SparseHist` with extra axes one by one succeeds, then so does one call with the whole
histogram, and afterwards the writer is in the same state, up to the order in which the entries of a sparse variation are
listed: same nuisances, groups and flags, same variations for every process.  Partial: the channel has to have the names of
the other axes in the same order, and the template the size of the histogram; see the `violated` theorems below. -/
theorem c12_loop_partial [IsStrictOrderedRing V] (hN : cfg.num.log 1 = 0) (ht : cfg.systType ≠ .other)
    (hsort : Spec.sorts sort) (hp : Spec.proper axes extra flat) (hr : Spec.ready cfg s axes extra chan proc c norm)
    {systAxes : Option (List String)} (hx : detectExtra s.channels (.sparseHist axes flat) chan systAxes = .ok (some extra))
    {slices : List (String × SystIn V)} (hsl : getSlices axes name extra (.single (.sparseHist axes flat)) = .ok slices)
    (hloop : forEach (fun e : String × SystIn V =>
      addSystematicAxes cfg sort e.2 e.1 proc chan kfac true symm false true none o) slices s = (s', .ok ())) :
    ∃ s'', addSystematicAxes cfg sort (.single (.sparseHist axes flat)) name proc chan kfac true symm false true systAxes o s =
      (s'', .ok ()) ∧ Spec.sameState s' s'' := by
  obtain ⟨es, es', h1, h2, h3⟩ := loop_and_batched hN ht hsort hp hr hsl hloop
  rw [call_batched hx, h2]
  exact insertAll_rel (h3.imp fun a b h => ⟨h.1, by
    obtain ⟨size, w, h1, h2⟩ := h.2
    exact same_of_holds h1 h2⟩) (sameState_refl s) h1

/-- C12: in dense mode the two ways leave exactly the same state. -/
theorem c12_dense_partial [IsStrictOrderedRing V] (hN : cfg.num.log 1 = 0) (ht : cfg.systType ≠ .other)
    (hdense : cfg.sparse = false)
    (hsort : Spec.sorts sort) (hp : Spec.proper axes extra flat) (hr : Spec.ready cfg s axes extra chan proc c norm)
    {systAxes : Option (List String)} (hx : detectExtra s.channels (.sparseHist axes flat) chan systAxes = .ok (some extra))
    {slices : List (String × SystIn V)} (hsl : getSlices axes name extra (.single (.sparseHist axes flat)) = .ok slices)
    (hloop : forEach (fun e : String × SystIn V =>
      addSystematicAxes cfg sort e.2 e.1 proc chan kfac true symm false true none o) slices s = (s', .ok ())) :
    addSystematicAxes cfg sort (.single (.sparseHist axes flat)) name proc chan kfac true symm false true systAxes o s =
      (s', .ok ()) := by
  obtain ⟨es, es', h1, h2, h3⟩ := loop_and_batched hN ht hsort hp hr hsl hloop
  rw [call_batched hx, h2]
  have : es = es' := by
    clear h1 h2
    induction h3 with
    | nil => rfl
    | cons h _ ih =>
      rename_i a b l l' _
      obtain ⟨a1, a2⟩ := a
      obtain ⟨b1, b2⟩ := b
      obtain ⟨rfl, size, w, h1, h2⟩ := h
      rw [hdense] at h1 h2
      have e : a2 = b2 := by
        cases a2 with
        | sparse => exact absurd h1.1 (by simp)
        | dense l =>
          cases b2 with
          | sparse => exact absurd h2.1 (by simp)
          | dense l' => rw [show l = _ from h1.2, show l' = _ from h2.2]
      rw [ih, show a2 = b2 from e]
  rw [← this]
  exact h1

/-- a stored variation that has the values `w` gives them back -/
theorem var_of_holds {sparse : Bool} {size : Nat} {w : Nat → V} {e : LogkE V} (h : Spec.holds sparse size w e) {b : Nat}
    (hb : b < size) : Writer.Spec.var e b = w b := by
  cases e with
  | dense l =>
    rw [show l = _ from h.2]
    simp [Writer.Spec.var, hb]
  | sparse l =>
    obtain ⟨_, hn, hm⟩ := h
    show ((l.find? fun e => e.1 == b).map (·.2)).getD 0 = w b
    by_cases hw : w b = 0
    · rw [hw]
      cases hf : (l.find? fun e => e.1 == b).map (·.2) with
      | none => rfl
      | some v =>
        have := (hm b v).1 ((find?_eq_some_iff hn).1 hf)
        exact absurd (this.2.1.trans hw) this.2.2
    · rw [find?_of_mem hn ((hm b (w b)).2 ⟨hb, rfl, hw⟩)]; rfl

theorem addBatched_inv (hr : Spec.ready cfg s axes extra chan proc c norm)
    (h : addBatched cfg sort axes flat name proc chan kfac extra o s = (s', .ok ())) :
    ∃ l, batchEntries cfg sort c norm kfac axes flat extra = .ok l := by
  obtain ⟨nc, hnc, hnp⟩ := Option.bind_eq_some_iff.1
    (show (s.norm.get? chan).bind (·.get? proc) = some norm from hr.hasNorm)
  have g1 : s.norm.get chan = .ok nc := by unfold Dict.get; rw [hnc]
  have g2 : nc.get proc = .ok norm := by unfold Dict.get; rw [hnp]
  have g3 : s.channels.get chan = .ok c := by unfold Dict.get; rw [hr.hasChan]
  unfold addBatched at h
  rw [read_bind, g3] at h
  obtain ⟨_, hx, h⟩ := lift_bind_ok h
  cases hx
  obtain ⟨_, h⟩ := Merge.raiseIf_ok h
  obtain ⟨_, h⟩ := Merge.raiseIf_ok h
  obtain ⟨_, h⟩ := Merge.raiseIf_ok h
  rw [g1] at h
  obtain ⟨_, hx, h⟩ := lift_bind_ok h
  cases hx
  rw [g2] at h
  obtain ⟨_, hx, h⟩ := lift_bind_ok h
  cases hx
  obtain ⟨l, hl, _⟩ := lift_bind_ok h
  exact ⟨l, hl⟩

/-- C12: what one call with extra axes books.  For every combination `i` of bins of the extra axes there is one nuisance,
named after the bins, and its variation in every bin `j` of the channel is that of the template by the content of the bin
`(i, j)` of the histogram.  No other variation is changed, and the nuisances are the new ones besides the old ones. -/
theorem c12_values [IsStrictOrderedRing V] (hN : cfg.num.log 1 = 0) (ht : cfg.systType ≠ .other)
    (hsort : Spec.sorts sort) (hp : Spec.proper axes extra flat) (hr : Spec.ready cfg s axes extra chan proc c norm)
    {systAxes : Option (List String)} (hx : detectExtra s.channels (.sparseHist axes flat) chan systAxes = .ok (some extra))
    (hnames : ((grid ((Spec.extraAxes axes extra).map (·.size))).map (Spec.sysName name (Spec.extraAxes axes extra))).Nodup)
    (h : addSystematicAxes cfg sort (.single (.sparseHist axes flat)) name proc chan kfac true symm false true systAxes o s =
      (s', .ok ())) :
    (∀ i ∈ grid ((Spec.extraAxes axes extra).map (·.size)), ∃ e,
      Spec.at3 s'.logkavg chan proc (Spec.sysName name (Spec.extraAxes axes extra) i) = some e ∧
      ∀ j ∈ grid (dims c.flow (Spec.others axes extra)),
        Writer.Spec.var e (Writer.ravel (dims c.flow (Spec.others axes extra)) j) =
          Spec.logk cfg.num cfg.systType kfac (Spec.normAt norm (Writer.ravel (dims c.flow (Spec.others axes extra)) j))
            (Spec.content axes flat (Spec.fullIndex axes extra c.flow i j))) ∧
    (∀ c' p m, (¬ (c' = chan ∧ p = proc) ∨ m ∉ (grid ((Spec.extraAxes axes extra).map (·.size))).map
      (Spec.sysName name (Spec.extraAxes axes extra))) → Spec.at3 s'.logkavg c' p m = Spec.at3 s.logkavg c' p m) ∧
    (∀ m, m ∈ s'.standard ↔ m ∈ s.standard ∨ (o.constrained = true ∧
      m ∈ (grid ((Spec.extraAxes axes extra).map (·.size))).map (Spec.sysName name (Spec.extraAxes axes extra)))) ∧
    (∀ m, m ∈ s'.noConstraint ↔ m ∈ s.noConstraint ∨ (o.constrained = false ∧
      m ∈ (grid ((Spec.extraAxes axes extra).map (·.size))).map (Spec.sysName name (Spec.extraAxes axes extra)))) := by
  have hP := placed_nodup (extra := extra) hp.range hp.once c.flow
  have hb := placed_bin hp c.flow
  have hsz := hr.sized
  have hidx := idx_kept hp.named hr.names
  rw [call_batched hx] at h
  obtain ⟨l, hl⟩ := addBatched_inv hr h
  rw [addBatched_eq hp.named hr.hasChan hr.hasNorm hr.table hr.names hl] at h
  have hes : (Spec.extraAxes axes extra).map (·.size) = extraSizes axes extra := by
    rw [← extraAxes_eq hp.named]
    unfold extraSizes
    rw [List.map_map, List.map_map]
    rfl
  rw [extraAxes_eq hp.named] at h
  rw [keptAxes_eq hp.named] at hsz ⊢
  have hL := batched_lists hN (fun l => (hsort l).1) (fun l => (hsort l).2) ht hidx hsz hP hb hl
  have hsub : ∀ k, subName name (Spec.extraAxes axes extra) k =
      Spec.sysName name (Spec.extraAxes axes extra) (unravel (extraSizes axes extra) k) := by
    intro k
    unfold subName
    rw [hes]
    rfl
  rw [hes] at hnames ⊢
  have hmem : ∀ m, m ∈ (List.range (Writer.prod (extraSizes axes extra))).map (subName name (Spec.extraAxes axes extra)) ↔
      m ∈ (grid (extraSizes axes extra)).map (Spec.sysName name (Spec.extraAxes axes extra)) := by
    intro m
    rw [List.mem_map, List.mem_map]
    constructor
    · rintro ⟨k, hk, rfl⟩
      exact ⟨_, unravel_mem (by rw [← prod_eq]; exact List.mem_range.1 hk), (hsub k).symm⟩
    · rintro ⟨i, hi, rfl⟩
      exact ⟨_, List.mem_range.2 (ravel_lt' hi), by rw [hsub, unravel_ravel hi]⟩
  have hfst : (((List.range (Writer.prod (extraSizes axes extra))).map fun i => (subName name (Spec.extraAxes axes extra) i,
      stored cfg.sparse (Writer.prod (dims c.flow (keptAxes axes extra))) ((run l i).map (·.2)))).map (·.1)) =
      (List.range (Writer.prod (extraSizes axes extra))).map (subName name (Spec.extraAxes axes extra)) := by
    rw [List.map_map]; rfl
  have hnd : ((List.range (Writer.prod (extraSizes axes extra))).map (subName name (Spec.extraAxes axes extra))).Nodup := by
    refine List.Nodup.map_on (fun a ha b hb hab => ?_) List.nodup_range
    have ha' : a < (extraSizes axes extra).prod := by rw [← prod_eq]; exact List.mem_range.1 ha
    have hb' : b < (extraSizes axes extra).prod := by rw [← prod_eq]; exact List.mem_range.1 hb
    rw [hsub, hsub] at hab
    have := List.inj_on_of_nodup_map hnames (unravel_mem ha') (unravel_mem hb') hab
    rw [← ravel_unravel ha', ← ravel_unravel hb', this]
  obtain ⟨a1, a2, a3, a4⟩ := insertAll_at (by rw [hfst]; exact hnd) h
  rw [hfst] at a2 a3 a4
  refine ⟨fun i hi => ?_, fun c' p m hm => a2 c' p m (hm.imp id fun h1 h2 => h1 ((hmem m).1 h2)), fun m => ?_, fun m => ?_⟩
  · have hk := ravel_lt' hi
    have := a1 _ (List.mem_map.2 ⟨Writer.ravel (extraSizes axes extra) i, List.mem_range.2 hk, rfl⟩)
    dsimp only at this
    rw [hsub, unravel_ravel hi] at this
    refine ⟨_, this, fun j hj => ?_⟩
    rw [var_of_holds (stored_holds (hL _) cfg.sparse) (ravel_lt' hj)]
    rw [diffAt_content hp hi hj]
  · rw [a3, hmem]
  · rw [a4, hmem]

/-! ### Slices -/

/-- the content of a bin as stored, possibly not a number -/
def Spec.rawContent (axes : List Axis) (flat : List (Nat × FVal V)) (m : List Nat) : FVal V :=
  ((flat.find? fun e => e.1 == Writer.ravel (dims true axes) m).map (·.2)).getD (.fin 0)

/-- C12: the slices of a `SparseHist`.  There is one for every combination `i` of bins of the extra axes, with the name of the
combination and the other axes, and its content in every bin `j`, with or without flow bins, is that of the bin `(i, j)` of
the histogram. -/
theorem c12_slices (hp : Spec.proper axes extra flat) {slices : List (String × SystIn V)}
    (hsl : getSlices axes name extra (.single (.sparseHist axes flat)) = .ok slices) {i : List Nat}
    (hi : i ∈ grid ((Spec.extraAxes axes extra).map (·.size))) :
    ∃ F, slices[Writer.ravel ((Spec.extraAxes axes extra).map (·.size)) i]? =
        some (Spec.sysName name (Spec.extraAxes axes extra) i, .single (.sparseHist (Spec.others axes extra) F)) ∧
      ∀ flow, ∀ j ∈ grid (dims flow (Spec.others axes extra)),
        ((HIn.sparseHist (Spec.others axes extra) F).flatVals flow)[Writer.ravel (dims flow (Spec.others axes extra)) j]? =
          some (Spec.rawContent axes flat (Spec.fullIndex axes extra flow i j)) := by
  have hes : (Spec.extraAxes axes extra).map (·.size) = extraSizes axes extra := by
    rw [← extraAxes_eq hp.named]
    unfold extraSizes
    rw [List.map_map, List.map_map]
    rfl
  rw [slices_eq hp.named, extraAxes_eq hp.named] at hsl
  cases hsl
  have hsub : subName name (Spec.extraAxes axes extra) (Writer.ravel (extraSizes axes extra) i) =
      Spec.sysName name (Spec.extraAxes axes extra) i := by
    unfold subName
    rw [hes] at hi ⊢
    rw [unravel_ravel hi]
    rfl
  rw [hes] at hi ⊢
  rw [keptAxes_eq hp.named]
  refine ⟨sliceEntries axes extra flat (Writer.ravel (extraSizes axes extra) i), ?_, fun flow j hj => ?_⟩
  · rw [List.getElem?_map, List.getElem?_range (ravel_lt' hi), Option.map_some, hsub]
  · have hP := placed_nodup (extra := extra) hp.range hp.once flow
    have hC := slice_csr (extra := extra) hp.range flow (Writer.ravel (extraSizes axes extra) i)
    have hnd := slice_nodup hP hC
    have hiff := placed_iff (flow := flow) hp hi hj
    show (densify _ (Writer.prod (dims flow (keptAxes axes extra))) _)[_]? = _
    unfold densify
    rw [List.getElem?_map, List.getElem?_range (ravel_lt' hj), Option.map_some]
    congr 1
    generalize ((HIn.sparseHist (keptAxes axes extra) (sliceEntries axes extra flat
      (Writer.ravel (extraSizes axes extra) i))).flatCsr flow).2 = C at hC hnd
    have hmem : ∀ x, (Writer.ravel (dims flow (keptAxes axes extra)) j, x) ∈ C ↔
        (Writer.ravel (dims true axes) (Spec.fullIndex axes extra flow i j), x) ∈ flat := by
      intro x
      rw [← hiff, hC.mem_iff, List.mem_map]
      constructor
      · rintro ⟨⟨s', y⟩, hy, e⟩
        have := List.mem_filter.1 hy
        have h2 : s' = Writer.ravel (extraSizes axes extra) i := by simpa using this.2
        subst h2
        dsimp only at e
        subst e
        exact this.1
      · exact fun h => ⟨_, List.mem_filter.2 ⟨h, by simp⟩, rfl⟩
    unfold Spec.rawContent
    congr 1
    refine Option.ext fun x => ?_
    show _ = some x ↔ _ = some x
    rw [find?_eq_some_iff hnd, find?_eq_some_iff hp.once]
    exact hmem x

/-! ### All other inputs -/

/-- the histogram whose axes are looked at: the first of a pair -/
def Spec.ref : SystIn V → HIn V
  | .single h => h
  | .pair h _ => h

theorem forEach_congr {β : Type} {f g : β → M V Unit} {ch : Dict String Chan} {l : List β}
    (hk : ∀ x ∈ l, Keeps (fun s : State V => s.channels) (g x))
    (hfg : ∀ x ∈ l, ∀ s : State V, s.channels = ch → f x s = g x s) : ∀ s : State V, s.channels = ch →
    forEach f l s = forEach g l s := by
  induction l with
  | nil => intro s _; rfl
  | cons x l ih =>
    intro s hs
    show M.bind (f x) (fun _ => forEach f l) s = M.bind (g x) (fun _ => forEach g l) s
    have hkx := (hk x (by simp)).run s
    have ih := ih (fun y hy => hk y (by simp [hy])) fun y hy => hfg y (by simp [hy])
    unfold M.bind
    rw [hfg x (by simp) s hs]
    cases hgs : g x s with
    | mk s1 r =>
      rw [hgs] at hkx
      cases r with
      | error e => rfl
      | ok u => exact ih s1 (hkx.trans hs)

/-- the calls that do not take the batched path -/
def Spec.notBatched (x : SystIn V) (mirror asDiff toCov : Bool) : Prop :=
  ∀ axes flat, x = .single (.sparseHist axes flat) → (mirror && asDiff && !toCov) = false

/-- C12: for all other inputs (dense histograms, up/down pairs, covariance, full templates) one call is the loop over the
slices, also if it raises. -/
theorem c12_call {x : SystIn V} {mirror toCov asDiff : Bool} {systAxes : Option (List String)}
    (hb : Spec.notBatched x mirror asDiff toCov)
    (hx : detectExtra s.channels (Spec.ref x) chan systAxes = .ok (some extra)) (hax : axes? (Spec.ref x) = some axes)
    (hc : s.channels.get? chan = some c) (hlen : (Spec.others axes extra).length = c.axes.length)
    {slices : List (String × SystIn V)} (hsl : getSlices axes name extra x = .ok slices) :
    addSystematicAxes cfg sort x name proc chan kfac mirror symm toCov asDiff systAxes o s =
      forEach (fun e : String × SystIn V =>
        addSystematicAxes cfg sort e.2 e.1 proc chan kfac mirror symm toCov asDiff none o) slices s := by
  have hrank : ∀ e ∈ slices, (axes? (Spec.ref e.2)).map List.length = some (Spec.others axes extra).length := by
    have key : ∀ (h : HIn V) (sizes : List Nat) (l : List (HIn V)), slicesOf sizes extra (Spec.others axes extra) h = .ok l →
        ∀ y ∈ l, (axes? y).map List.length = some (Spec.others axes extra).length := by
      intro h sizes l hl y hy
      cases h with
      | sparseHist axes' flat' =>
        unfold slicesOf at hl
        dsimp only at hl
        split at hl
        · cases hl
        · split at hl
          · cases hl
          · cases hl
            obtain ⟨k, _, rfl⟩ := List.mem_map.1 hy
            rfl
      | hist axes' vals vars =>
        cases hl
        obtain ⟨k, _, rfl⟩ := List.mem_map.1 hy
        rfl
      | scipy => cases hl
      | array => cases hl
    intro e he
    unfold getSlices at hsl
    dsimp only at hsl
    cases x with
    | single h =>
      dsimp only [bind, Except.bind] at hsl
      split at hsl
      · cases hsl
      · rename_i l hl
        cases hsl
        have h1 := (List.of_mem_zip (show (e.1, e.2) ∈ _ from he)).2
        obtain ⟨y, hy, e1⟩ := List.mem_map.1 h1
        rw [← e1]
        exact key h _ l hl y hy
    | pair hu hd =>
      dsimp only [bind, Except.bind] at hsl
      split at hsl
      · cases hsl
      · split at hsl
        · cases hsl
        · rename_i lu hlu
          split at hsl
          · cases hsl
          · rename_i ld hld
            cases hsl
            have h1 := (List.of_mem_zip (show (e.1, e.2) ∈ _ from he)).2
            obtain ⟨k, hk, e1⟩ := List.getElem_of_mem h1
            rw [List.getElem_zipWith] at e1
            rw [← e1]
            exact key hu _ lu hlu _ (List.getElem_mem _)
  have hsingle : ∀ e ∈ slices, ∀ s1 : State V, s1.channels = s.channels →
      addSystematicAxes cfg sort e.2 e.1 proc chan kfac mirror symm toCov asDiff none o s1 =
        addSystematic cfg e.2 e.1 proc chan kfac mirror symm toCov asDiff o s1 := by
    intro e he s1 hs1
    have hr := hrank e he
    have key : ∀ h : HIn V, (axes? h).map List.length = some (Spec.others axes extra).length →
        detectExtra s1.channels h chan none = .ok none := by
      intro h hh
      obtain ⟨a, ha, hal⟩ := Option.map_eq_some_iff.1 hh
      unfold detectExtra
      rw [ha, hs1, hc]
      simp [hal, hlen]
    obtain ⟨nm, y⟩ := e
    cases y with
    | single h =>
      unfold addSystematicAxes
      rw [read_bind]
      dsimp only
      rw [key h hr]
      rfl
    | pair h hd =>
      unfold addSystematicAxes
      rw [read_bind]
      dsimp only
      rw [key h hr]
      rfl
  rw [forEach_congr (ch := s.channels) (g := fun e : String × SystIn V =>
    addSystematic cfg e.2 e.1 proc chan kfac mirror symm toCov asDiff o)
    (fun e _ => ⟨fun s => congrArg Core.channels
      ((keeps_addSystematic cfg e.2 e.1 proc chan kfac mirror symm toCov asDiff o).run s)⟩) hsingle s rfl]
  unfold addSystematicAxes
  rw [read_bind]
  have hopt : (axes? (Spec.ref x)).getD [] = axes := by rw [hax]; rfl
  cases x with
  | pair hu hd =>
    dsimp only
    rw [show detectExtra s.channels hu chan systAxes = _ from hx]
    show (lift (getSlices ((axes? hu).getD []) name extra (.pair hu hd)) >>= _) s = _
    rw [show (axes? hu).getD [] = axes from hopt, hsl]
    rfl
  | single h =>
    dsimp only
    rw [show detectExtra s.channels h chan systAxes = _ from hx]
    cases h with
    | sparseHist a f =>
      have : a = axes := Option.some.inj hax
      subst this
      show (if _ then _ else _ : M V Unit) s = _
      rw [if_neg (by rw [hb a f rfl]; simp)]
      rw [hsl]
      rfl
    | hist a v w =>
      have : a = axes := Option.some.inj hax
      subst this
      show (lift (getSlices a name extra (.single (.hist a v w))) >>= _) s = _
      rw [hsl]
      rfl
    | scipy => cases hax
    | array => cases hax

end

/-! ### Examples -/

namespace Ex

def chanAx : Axis := ⟨some "x", 2, 2, true, false, none⟩
def otherAx : Axis := ⟨some "y", 2, 2, false, false, none⟩
def systAx : Axis := ⟨some "s", 3, 2, false, true, some ["a", "b"]⟩
def scaleAx : Axis := ⟨some "t", 4, 3, false, false, none⟩

def sort (l : List (Nat × Nat × ℚ)) : List (Nat × Nat × ℚ) := pySort (fun a b => a.1 ≤ b.1) l

theorem sorts : Spec.sorts sort := fun l => ⟨pySort_perm _, by
  have := pySort_pairwise (le := fun a b : Nat × Nat × ℚ => decide (a.1 ≤ b.1))
    (by intro a b c h1 h2; simp only [decide_eq_true_eq] at *; omega)
    (by intro a b; simp only [Bool.or_eq_true, decide_eq_true_eq]; omega) l
  exact this.imp fun h => by simpa using h⟩

def cfg (sparse : Bool) : Cfg ℚ := { Writer.Ex.cfg with sparse := sparse }

/-- a channel with one process -/
def state (cfg : Cfg ℚ) (axes : List Axis) (h : HIn ℚ) : State ℚ :=
  Writer.run cfg [.channel axes (some "ch") false false, .process h "p" "ch" false none]

/-- axes: systematic with two bins and overflow, channel axis with underflow and two bins, scale with three bins -/
def axes : List Axis := [systAx, chanAx, scaleAx]

/-- contents: `(0, 1, 0) -> 1`, `(1, 2, 2) -> 3`, `(0, 2, 1) -> -1`, underflow `(0, 0, 0) -> 9`, overflow `(2, 1, 0) -> 8` -/
def flat : List (Nat × FVal ℚ) := [(17, .fin 3), (3, .fin 1), (7, .fin (-1)), (0, .fin 9), (21, .fin 8)]

theorem proper : Spec.proper axes ["s", "t"] flat where
  named := ⟨by decide, by decide, by decide, by decide⟩
  range := by decide
  once := by decide

/-- what is booked -/
def view (r : State ℚ × Res Unit) : Option (List (String × LogkE ℚ)) :=
  match r.2 with
  | .ok _ => (Spec.at2 r.1.logkavg "ch" "p")
  | .error _ => none

def loop (cfg : Cfg ℚ) (axes : List Axis) (flat : List (Nat × FVal ℚ)) (extra : List String) (s : State ℚ) : State ℚ × Res Unit :=
  match getSlices axes "n" extra (.single (.sparseHist axes flat)) with
  | .ok l => forEach (fun e : String × SystIn ℚ =>
      addSystematicAxes cfg sort e.2 e.1 "p" "ch" 1 true .average false true none {}) l s
  | .error e => (s, .error e)

def once (cfg : Cfg ℚ) (axes : List Axis) (flat : List (Nat × FVal ℚ)) (systAxes : Option (List String)) (s : State ℚ) :
    State ℚ × Res Unit :=
  addSystematicAxes cfg sort (.single (.sparseHist axes flat)) "n" "p" "ch" 1 true .average false true systAxes {} s

end Ex

/-- the hypotheses of the theorems above are met in dense mode ... -/
example : Spec.ready (Ex.cfg false) (Ex.state (Ex.cfg false) [Ex.chanAx] (.array [2] [.fin 2, .fin 4])) Ex.axes ["s", "t"]
    "ch" "p" ⟨[Ex.chanAx], false, false⟩ (.dense [2, 4]) where
  hasChan := by decide +kernel
  names := by decide
  hasNorm := by decide +kernel
  table := by decide +kernel
  sized := by
    show [(2 : ℚ), 4].length = _
    decide
  sparse := by intro _ _ h; cases h

example : detectExtra (Ex.state (Ex.cfg false) [Ex.chanAx] (.array [2] [.fin 2, .fin 4])).channels
    (.sparseHist Ex.axes Ex.flat) "ch" none = .ok (some ["s", "t"]) := by decide +kernel

example : ((grid ((Spec.extraAxes Ex.axes ["s", "t"]).map (·.size))).map
    (Spec.sysName "n" (Spec.extraAxes Ex.axes ["s", "t"]))) = ["n_a_0", "n_a_1", "n_a_2", "n_b_0", "n_b_1", "n_b_2"] := by
  decide +kernel

/-- ... where the logarithm is replaced by `x - 1`, so the variations are relative differences ... -/
example : Ex.view (Ex.loop (Ex.cfg false) Ex.axes Ex.flat ["s", "t"]
    (Ex.state (Ex.cfg false) [Ex.chanAx] (.array [2] [.fin 2, .fin 4]))) =
    some [("n_a_0", .dense [1 / 2, 0]), ("n_a_1", .dense [0, -1 / 4]), ("n_a_2", .dense [0, 0]), ("n_b_0", .dense [0, 0]),
      ("n_b_1", .dense [0, 0]), ("n_b_2", .dense [0, 3 / 4])] := by decide +kernel

/-- ... and in sparse mode. -/
example : Spec.ready (Ex.cfg true) (Ex.state (Ex.cfg true) [Ex.chanAx] (.scipy [2] [(0, .fin 2), (1, .fin 4)])) Ex.axes
    ["s", "t"] "ch" "p" ⟨[Ex.chanAx], false, false⟩ (.csr 2 [(0, 2), (1, 4)]) where
  hasChan := by decide +kernel
  names := by decide
  hasNorm := by decide +kernel
  table := by decide +kernel
  sized := by
    refine ⟨by decide, ?_⟩
    decide +kernel
  sparse := by intro _ _ _; rfl

example : Ex.view (Ex.once (Ex.cfg true) Ex.axes Ex.flat none
    (Ex.state (Ex.cfg true) [Ex.chanAx] (.scipy [2] [(0, .fin 2), (1, .fin 4)]))) =
    some [("n_a_0", .sparse [(0, 1 / 2)]), ("n_a_1", .sparse [(1, -1 / 4)]), ("n_a_2", .sparse []), ("n_b_0", .sparse []),
      ("n_b_1", .sparse []), ("n_b_2", .sparse [(1, 3 / 4)])] := by decide +kernel

/-- sparse storage of a dense template -/
example : Ex.view (Ex.loop (Ex.cfg true) Ex.axes Ex.flat ["s", "t"]
    (Ex.state (Ex.cfg true) [Ex.chanAx] (.array [2] [.fin 2, .fin 4]))) =
    some [("n_a_0", .sparse [(0, 1 / 2)]), ("n_a_1", .sparse [(1, -1 / 4)]), ("n_a_2", .sparse []), ("n_b_0", .sparse []),
      ("n_b_1", .sparse []), ("n_b_2", .sparse [(1, 3 / 4)])] := by decide +kernel

/-- a pair of dense histograms with one extra axis: the hypotheses of `c12_call` are met -/
example : (detectExtra (Ex.state (Ex.cfg false) [Ex.chanAx] (.array [2] [.fin 2, .fin 4])).channels
      (Spec.ref (.pair (.hist [Ex.systAx, Ex.chanAx] (fun _ => [3, 4, 2, 6].map .fin) fun _ => [])
        (.hist [Ex.systAx, Ex.chanAx] (fun _ => [1, 4, 2, 2].map .fin) fun _ => []) : SystIn ℚ)) "ch" none = .ok (some ["s"])) ∧
    Ex.view (addSystematicAxes (Ex.cfg false) Ex.sort
      (.pair (.hist [Ex.systAx, Ex.chanAx] (fun _ => [3, 4, 2, 6].map .fin) fun _ => [])
        (.hist [Ex.systAx, Ex.chanAx] (fun _ => [1, 4, 2, 2].map .fin) fun _ => [])) "n" "p" "ch" 1 true .average false false none {}
      (Ex.state (Ex.cfg false) [Ex.chanAx] (.array [2] [.fin 2, .fin 4]))) =
    some [("n_a", .dense [1 / 2, 0]), ("n_b", .dense [0, 1 / 2])] := by decide +kernel

/-! ### Where the two ways differ -/

/-- The code violates C12 here: if the other axes come in a different order than in the channel and have the same binning,
the loop reads the slices transposed, while the batched path matches the axes by name; both succeed with different
variations. -/
theorem c12_order_violated : ∃ (axes : List Axis) (flat : List (Nat × FVal ℚ)) (s : State ℚ) (l l' : List (String × LogkE ℚ)),
    detectExtra s.channels (.sparseHist axes flat) "ch" none = .ok (some ["s"]) ∧
    Ex.view (Ex.loop (Ex.cfg false) axes flat ["s"] s) = some l ∧ Ex.view (Ex.once (Ex.cfg false) axes flat none s) = some l' ∧
    (∀ e e', (l.map (·.2))[0]? = some e → (l'.map (·.2))[0]? = some e' → ¬ Spec.same e e') ∧ l ≠ [] ∧ l' ≠ [] := by
  refine ⟨[⟨some "s", 0, 1, false, false, none⟩, Ex.otherAx, ⟨some "x", 2, 2, false, false, none⟩], [(1, .fin 3)],
    Ex.state (Ex.cfg false) [⟨some "x", 2, 2, false, false, none⟩, Ex.otherAx] (.array [2, 2] [.fin 1, .fin 1, .fin 1, .fin 1]),
    [("n_0", .dense [0, 3, 0, 0])], [("n_0", .dense [0, 0, 3, 0])], by decide +kernel, by decide +kernel, by decide +kernel, ?_,
    by simp, by simp⟩
  intro e e' he he'
  cases he
  cases he'
  show ¬ ([0, 3, 0, 0] : List ℚ) = [0, 0, 3, 0]
  decide

/-- The code violates C12 here: the batched path does not compare the binning with that of the channel, so a histogram
whose slices are all rejected one by one is booked. -/
theorem c12_binning_violated : ∃ (axes : List Axis) (flat : List (Nat × FVal ℚ)) (s : State ℚ),
    detectExtra s.channels (.sparseHist axes flat) "ch" none = .ok (some ["s"]) ∧
    (Ex.loop (Ex.cfg false) axes flat ["s"] s).2 = .error .runtime ∧
    Ex.view (Ex.once (Ex.cfg false) axes flat none s) = some [("n_0", .dense [3, 0])] := by
  exact ⟨[⟨some "s", 0, 1, false, false, none⟩, ⟨some "x", 5, 2, false, false, none⟩], [(0, .fin 3)],
    Ex.state (Ex.cfg false) [⟨some "x", 2, 2, false, false, none⟩] (.array [2] [.fin 1, .fin 1]),
    by decide +kernel, by decide +kernel, by decide +kernel⟩

/-- The code violates C12 here: a number that is not finite in a bin without events is rejected one by one and dropped by the
batched path. -/
theorem c12_finite_violated : ∃ (axes : List Axis) (flat : List (Nat × FVal ℚ)) (s : State ℚ),
    detectExtra s.channels (.sparseHist axes flat) "ch" none = .ok (some ["s"]) ∧
    (Ex.loop (Ex.cfg false) axes flat ["s"] s).2 = .error .runtime ∧
    Ex.view (Ex.once (Ex.cfg false) axes flat none s) = some [("n_0", .dense [0, 3])] := by
  exact ⟨[⟨some "s", 0, 1, false, false, none⟩, ⟨some "x", 2, 2, false, false, none⟩], [(0, .nan), (1, .fin 3)],
    Ex.state (Ex.cfg false) [⟨some "x", 2, 2, false, false, none⟩] (.array [2] [.fin 0, .fin 1]),
    by decide +kernel, by decide +kernel, by decide +kernel⟩

/-- The code violates C12 here: with a sparse template, a slice without an entry at or above the last bin of the template
raises `IndexError` one by one, but is booked by the batched path. -/
theorem c12_empty_violated : ∃ (axes : List Axis) (flat : List (Nat × FVal ℚ)) (s : State ℚ),
    detectExtra s.channels (.sparseHist axes flat) "ch" none = .ok (some ["s"]) ∧
    (Ex.loop (Ex.cfg true) axes flat ["s"] s).2 = .error .index ∧
    Ex.view (Ex.once (Ex.cfg true) axes flat none s) = some [("n_0", .sparse [(0, 3)])] := by
  exact ⟨[⟨some "s", 0, 1, false, false, none⟩, ⟨some "x", 2, 2, false, false, none⟩], [(0, .fin 3)],
    Ex.state (Ex.cfg true) [⟨some "x", 2, 2, false, false, none⟩] (.scipy [2] [(0, .fin 1), (1, .fin 1)]),
    by decide +kernel, by decide +kernel, by decide +kernel⟩

/-- The code violates C12 here: an axis that is neither listed in `syst_axes` nor an axis of the channel is ignored by the
batched path, which then keeps one of the entries that fall into the same bin; the loop of `add_systematic` over the slices
(the path without `as_difference`) rejects them. -/
theorem c12_unlisted_violated : ∃ (axes : List Axis) (flat : List (Nat × FVal ℚ)) (s : State ℚ),
    detectExtra s.channels (.sparseHist axes flat) "ch" (some ["s"]) = .ok (some ["s"]) ∧
    (∃ slices, getSlices axes "n" ["s"] (.single (.sparseHist axes flat)) = .ok slices ∧
      (addSlices (Ex.cfg false) slices "p" "ch" 1 true .average false true {} s).2 = .error .runtime) ∧
    Ex.view (Ex.once (Ex.cfg false) axes flat (some ["s"]) s) = some [("n_0", .dense [5, 0])] := by
  exact ⟨[⟨some "s", 0, 1, false, false, none⟩, Ex.scaleAx, ⟨some "x", 2, 2, false, false, none⟩], [(0, .fin 3), (2, .fin 5)],
    Ex.state (Ex.cfg false) [⟨some "x", 2, 2, false, false, none⟩] (.array [2] [.fin 1, .fin 1]),
    by decide +kernel, ⟨_, rfl, by decide +kernel⟩, by decide +kernel⟩

/-- The code violates C12 here: different combinations of bins can have the same name, and then only one of the nuisances
remains. -/
theorem c12_names_violated : ∃ (axes : List Axis) (flat : List (Nat × FVal ℚ)) (s : State ℚ) (l : List (String × LogkE ℚ)),
    detectExtra s.channels (.sparseHist axes flat) "ch" none = .ok (some ["s", "t"]) ∧
    prod ((Spec.extraAxes axes ["s", "t"]).map (·.size)) = 4 ∧ Ex.view (Ex.once (Ex.cfg false) axes flat none s) = some l ∧
    l.length = 3 := by
  exact ⟨[⟨some "s", 0, 2, false, false, some ["a", "a_b"]⟩, ⟨some "t", 0, 2, false, false, some ["b_c", "c"]⟩,
    ⟨some "x", 2, 2, false, false, none⟩], [(0, .fin 3), (7, .fin 1)],
    Ex.state (Ex.cfg false) [⟨some "x", 2, 2, false, false, none⟩] (.array [2] [.fin 1, .fin 1]),
    [("n_a_b_c", .dense [0, 1]), ("n_a_c", .dense [0, 0]), ("n_a_b_b_c", .dense [0, 0])],
    by decide +kernel, by decide +kernel, by decide +kernel, by decide⟩

end Verif.Batched
