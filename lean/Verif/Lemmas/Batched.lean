import Verif.Model.Batched
import Verif.Lemmas.Grid
import Verif.Lemmas.Py
import Verif.Lemmas.Writer
import Mathlib.Data.List.Perm.Basic
import Mathlib.Data.List.Perm.Lattice
import Mathlib.Data.List.Pairwise

/-! Facts about the slicing of systematic histograms with extra axes. -/

namespace Verif.Batched

open Verif.Logk Verif.Writer Verif.Grid

/-! ### Multi-indices -/

theorem prod_eq (l : List Nat) : Writer.prod l = l.prod := rfl

theorem ravel_eq (s m : List Nat) : Writer.ravel s m = Grid.ravel s m := by
  induction s generalizing m with
  | nil => simp [Writer.ravel, Grid.ravel]
  | cons n ns ih =>
    cases m with
    | nil => simp [Writer.ravel, Grid.ravel]
    | cons i is => simp only [Writer.ravel, Grid.ravel, ih, prod_eq]

theorem unravel_mem {s : List Nat} {i : Nat} (h : i < s.prod) : unravel s i ∈ grid s := by
  rw [mem_grid]
  induction s generalizing i with
  | nil => exact .nil
  | cons n ns ih =>
    rw [List.prod_cons] at h
    have hp : 0 < ns.prod := by
      rcases Nat.eq_zero_or_pos ns.prod with h0 | h0
      · rw [h0, Nat.mul_zero] at h; omega
      · exact h0
    refine .cons ?_ (ih (Nat.mod_lt _ hp))
    rw [prod_eq]
    exact (Nat.div_lt_iff_lt_mul hp).2 h

theorem ravel_unravel {s : List Nat} {i : Nat} (h : i < s.prod) : Writer.ravel s (unravel s i) = i := by
  induction s generalizing i with
  | nil =>
    have : i = 0 := by simpa using h
    subst this; rfl
  | cons n ns ih =>
    rw [List.prod_cons] at h
    have hp : 0 < ns.prod := by
      rcases Nat.eq_zero_or_pos ns.prod with h0 | h0
      · rw [h0, Nat.mul_zero] at h; omega
      · exact h0
    simp only [unravel, Writer.ravel, prod_eq]
    rw [ih (Nat.mod_lt _ hp)]
    exact Nat.div_add_mod' i ns.prod

theorem unravel_ravel {s m : List Nat} (h : m ∈ grid s) : unravel s (Writer.ravel s m) = m := by
  have hlt : Writer.ravel s m < s.prod := by rw [ravel_eq]; exact ravel_lt h
  refine ravel_inj (unravel_mem hlt) h ?_
  rw [← ravel_eq, ← ravel_eq, ravel_unravel hlt]

theorem ravel_lt' {s m : List Nat} (h : m ∈ grid s) : Writer.ravel s m < Writer.prod s := by
  rw [ravel_eq, prod_eq]; exact ravel_lt h

theorem ravel_inj' {s i j : List Nat} (hi : i ∈ grid s) (hj : j ∈ grid s) (h : Writer.ravel s i = Writer.ravel s j) :
    i = j := ravel_inj hi hj (by rw [← ravel_eq, ← ravel_eq, h])

/-- a mapped index lies in the grid of the mapped sizes -/
theorem map_mem_grid {α : Type} {l : List α} {f g : α → Nat} (h : ∀ x ∈ l, f x < g x) : l.map f ∈ grid (l.map g) := by
  rw [mem_grid]
  induction l with
  | nil => exact .nil
  | cons x l ih => exact .cons (h x (by simp)) (ih fun y hy => h y (by simp [hy]))

/-! ### Runs of a sorted list -/

theorem run_eq {α : Type} (l : List (Nat × α)) (h : l.Pairwise fun a b => a.1 ≤ b.1) (s : Nat) :
    run l s = l.filter fun e => e.1 = s := by
  unfold run
  dsimp only
  induction l with
  | nil => rfl
  | cons x l ih =>
    have hx := List.pairwise_cons.1 h
    have ih := ih hx.2
    by_cases h1 : x.1 < s
    · have h2 : x.1 < s + 1 := by omega
      have h3 : ¬ x.1 = s := by omega
      rw [List.countP_cons_of_pos (by simpa using h1), List.countP_cons_of_pos (by simpa using h2), List.take_succ_cons,
        List.drop_succ_cons, ih, List.filter_cons_of_neg (by simpa using h3)]
    · have h0 : l.countP (fun e => decide (e.1 < s)) = 0 := by
        rw [List.countP_eq_zero]
        intro y hy
        have := hx.1 y hy
        simp only [decide_eq_true_eq]; omega
      rw [List.countP_cons_of_neg (by simpa using h1), h0, List.drop_zero]
      rw [h0, List.drop_zero] at ih
      by_cases h2 : x.1 < s + 1
      · have h3 : x.1 = s := by omega
        rw [List.countP_cons_of_pos (by simpa using h2), List.take_succ_cons, ih, List.filter_cons_of_pos (by simpa using h3)]
      · have h3 : ¬ x.1 = s := by omega
        have h4 : l.countP (fun e => decide (e.1 < s + 1)) = 0 := by
          rw [List.countP_eq_zero]
          intro y hy
          have := hx.1 y hy
          simp only [decide_eq_true_eq]; omega
        rw [List.countP_cons_of_neg (by simpa using h2), h4, List.take_zero, List.filter_cons_of_neg (by simpa using h3)]
        rw [h4, List.take_zero] at ih
        exact ih

/-! ### Labels -/

theorem axisLabels_getD {a : Axis} {i : Nat} (h : i < a.size) : (axisLabels a).getD i "" = binLabel a i := by
  unfold axisLabels binLabel
  cases a.cats with
  | none => simp [List.getD_eq_getElem?_getD, h]
  | some l => simp [List.getD_eq_getElem?_getD, h]

theorem zipWith_labels {ex : List Axis} {m : List Nat} (h : m ∈ grid (ex.map (·.size))) :
    List.zipWith (fun a i => (axisLabels a).getD i "") ex m = List.zipWith binLabel ex m := by
  rw [mem_grid] at h
  induction ex generalizing m with
  | nil => simp
  | cons a ex ih =>
    cases h with
    | cons h1 h2 => simp only [List.zipWith_cons_cons]; rw [axisLabels_getD h1, ih h2]

theorem batchNames_eq (name : String) (ex : List Axis) :
    batchNames name ex = (List.range (Writer.prod (ex.map (·.size)))).map (subName name ex) := by
  unfold batchNames
  split
  · rename_i a
    have e : Writer.prod ([a].map (·.size)) = a.size := by simp [Writer.prod]
    rw [e]
    refine List.map_congr_left fun i hi => ?_
    rw [List.mem_range] at hi
    rw [axisLabels_getD hi]
    simp only [subName, List.map, unravel, Writer.prod, List.foldr, Nat.div_one, List.zipWith]
    rfl
  · refine List.map_congr_left fun s hs => ?_
    rw [List.mem_range] at hs
    rw [zipWith_labels (unravel_mem hs)]
    rfl

/-! ### Positions of axes -/

theorem axisAt_eq {axes : List Axis} {i : Nat} (h : i < axes.length) : axisAt axes i = axes[i] := by
  unfold axisAt
  rw [List.getD_eq_getElem?_getD, List.getElem?_eq_getElem h]; rfl

theorem map_axisAt (axes : List Axis) : (List.range axes.length).map (axisAt axes) = axes := by
  refine List.ext_getElem (by simp) fun i h1 h2 => ?_
  rw [List.getElem_map, List.getElem_range]
  exact axisAt_eq h2

/-- What is asked of the axes: names are present and unique, the extra axes are among them. -/
structure Named (axes : List Axis) (extra : List String) : Prop where
  names : ∀ a ∈ axes, a.name.isSome
  nodup : (axes.map (·.name)).Nodup
  distinct : extra.Nodup
  sub : ∀ n ∈ extra, some n ∈ axes.map (·.name)

variable {axes : List Axis} {extra : List String}

theorem pos_lt (h : Named axes extra) {n : String} (hn : n ∈ extra) : pos axes n < axes.length := by
  have := List.idxOf_lt_length_iff.2 (h.sub n hn)
  simpa [pos] using this

theorem axisAt_pos (h : Named axes extra) {n : String} (hn : n ∈ extra) : (axisAt axes (pos axes n)).name = some n := by
  rw [axisAt_eq (pos_lt h hn)]
  have h1 : pos axes n < (axes.map (·.name)).length := by simpa using pos_lt h hn
  have h2 : (axes.map (·.name))[pos axes n]'h1 = some n := List.getElem_idxOf h1
  simpa using h2

theorem idxOf_name (h : Named axes extra) {i : Nat} (hi : i < axes.length) :
    (axes.map (·.name)).idxOf (axisAt axes i).name = i := by
  rw [axisAt_eq hi]
  have := h.nodup.idxOf_getElem i (by simpa using hi)
  simpa using this

/-- positions of the kept axes -/
theorem kept_iff (h : Named axes extra) {i : Nat} (hi : i < axes.length) :
    (axisAt axes i).name ∉ extra.map some ↔ i ∉ extra.map (pos axes) := by
  refine not_congr ?_
  rw [List.mem_map, List.mem_map]
  constructor
  · rintro ⟨n, hn, e⟩
    refine ⟨n, hn, ?_⟩
    unfold pos
    rw [e]
    exact idxOf_name h hi
  · rintro ⟨n, hn, e⟩
    exact ⟨n, hn, by rw [← e]; exact (axisAt_pos h hn).symm⟩

theorem keep_eq (h : Named axes extra) :
    axes.filter (fun a => a.name ∉ extra.map some) =
      ((List.range axes.length).filter fun p => p ∉ extra.map (pos axes)).map (axisAt axes) := by
  conv_lhs => rw [← map_axisAt axes]
  rw [List.filter_map]
  congr 1
  refine List.filter_congr fun i hi => ?_
  rw [List.mem_range] at hi
  exact decide_eq_decide.2 (kept_iff h hi)

theorem keepPos_eq (h : Named axes extra) :
    (axes.filter (fun a => a.name ∉ extra.map some)).map (fun a => (axes.map (·.name)).idxOf a.name) =
      (List.range axes.length).filter fun p => p ∉ extra.map (pos axes) := by
  rw [keep_eq h, List.map_map]
  conv_rhs => rw [← List.map_id ((List.range axes.length).filter fun p => p ∉ extra.map (pos axes))]
  refine List.map_congr_left fun i hi => ?_
  exact idxOf_name h (List.mem_range.1 (List.mem_filter.1 hi).1)

/-! ### Entries of the slices -/

section
variable {V : Type}

/-- positions of the kept axes -/
def kept (axes : List Axis) (extra : List String) : List Nat :=
  (List.range axes.length).filter fun p => p ∉ extra.map (pos axes)

/-- the kept axes -/
def keptAxes (axes : List Axis) (extra : List String) : List Axis := (kept axes extra).map (axisAt axes)

/-- sizes of the extra axes -/
def extraSizes (axes : List Axis) (extra : List String) : List Nat :=
  (extra.map (pos axes)).map fun p => (axisAt axes p).size

/-- systematic, bin and value of an entry -/
def placeOf (flow : Bool) (axes : List Axis) (extra : List String) (e : MEntry V) : Nat × Nat × FVal V :=
  (Writer.ravel (extraSizes axes extra) (regular axes (extra.map (pos axes)) e),
    (if flow then Writer.ravel (dims true (keptAxes axes extra)) ((kept axes extra).map fun p => e.idx.getD p 0)
      else Writer.ravel (dims false (keptAxes axes extra)) (regular axes (kept axes extra) e)), e.val)

/-- the entries in regular bins with their places -/
def placed (flow : Bool) (axes : List Axis) (extra : List String) (flat : List (Nat × FVal V)) :
    List (Nat × Nat × FVal V) :=
  ((entries axes flat).filter (valid axes (if flow then extra.map (pos axes) else extra.map (pos axes) ++ kept axes extra))).map
    (placeOf flow axes extra)

/-- an entry of a well-formed histogram -/
def IsEntry (axes : List Axis) (e : MEntry V) : Prop := e.idx ∈ grid (dims true axes)

theorem entries_mem {flat : List (Nat × FVal V)} (hr : ∀ e ∈ flat, e.1 < Writer.prod (dims true axes)) {e : MEntry V}
    (he : e ∈ entries axes flat) : IsEntry axes e := by
  obtain ⟨x, hx, rfl⟩ := List.mem_map.1 he
  exact unravel_mem (hr x hx)

theorem getD_lt_extent {e : MEntry V} (he : IsEntry axes e) {p : Nat} (hp : p < axes.length) :
    e.idx.getD p 0 < (axisAt axes p).extent := by
  have h := mem_grid.1 he
  have hl := h.length_eq
  have hl' : e.idx.length = axes.length := by rw [hl]; simp [dims]
  have h1 : p < e.idx.length := by omega
  have h2 : p < (dims true axes).length := by omega
  have := (List.forall₂_iff_get.1 h).2 p h1 h2
  rw [List.getD_eq_getElem?_getD, List.getElem?_eq_getElem h1, axisAt_eq hp]
  simpa [dims] using this

theorem kept_lt {p : Nat} (h : p ∈ kept axes extra) : p < axes.length := List.mem_range.1 (List.mem_filter.1 h).1

theorem kept_grid {e : MEntry V} (he : IsEntry axes e) :
    (kept axes extra).map (fun p => e.idx.getD p 0) ∈ grid (dims true (keptAxes axes extra)) := by
  unfold dims keptAxes
  rw [List.map_map]
  refine map_mem_grid fun p hp => ?_
  exact getD_lt_extent he (kept_lt hp)

theorem valid_iff {ps : List Nat} {e : MEntry V} :
    valid axes ps e = true ↔ ∀ p ∈ ps, (axisAt axes p).off ≤ e.idx.getD p 0 ∧
      e.idx.getD p 0 < (axisAt axes p).off + (axisAt axes p).size := by
  unfold valid inside
  simp

theorem regular_grid {ps : List Nat} {e : MEntry V} (h : valid axes ps e = true) :
    regular axes ps e ∈ grid (ps.map fun p => (axisAt axes p).size) := by
  unfold regular
  refine map_mem_grid fun p hp => ?_
  have := valid_iff.1 h p hp
  omega

theorem syst_lt {e : MEntry V} (h : valid axes (extra.map (pos axes)) e = true) (flow : Bool) :
    (placeOf flow axes extra e).1 < Writer.prod (extraSizes axes extra) := ravel_lt' (regular_grid h)

theorem keptAxes_size (axes : List Axis) (extra : List String) :
    dims false (keptAxes axes extra) = (kept axes extra).map fun p => (axisAt axes p).size := by
  unfold dims keptAxes
  rw [List.map_map]; rfl

theorem bin_lt {e : MEntry V} (he : IsEntry axes e) {flow : Bool} (h : flow = false → valid axes (kept axes extra) e = true) :
    (placeOf flow axes extra e).2.1 < Writer.prod (dims flow (keptAxes axes extra)) := by
  cases flow with
  | true => exact ravel_lt' (kept_grid he)
  | false =>
    refine ravel_lt' ?_
    rw [keptAxes_size]
    exact regular_grid (h rfl)

/-- the entries of the slice of a systematic, in the with-flow layout of the kept axes -/
def sliceEntries (axes : List Axis) (extra : List String) (flat : List (Nat × FVal V)) (s : Nat) : List (Nat × FVal V) :=
  let es := (entries axes (sortFlat flat)).filter (valid axes (extra.map (pos axes)))
  let tagged := es.map fun e => (Writer.ravel (extraSizes axes extra) (regular axes (extra.map (pos axes)) e), e)
  let sorted := pySort (fun a b : Nat × MEntry V => a.1 ≤ b.1) tagged
  sortFlat ((run sorted s).map fun e =>
    (Writer.ravel (dims true (keptAxes axes extra)) ((kept axes extra).map fun p => e.2.idx.getD p 0), e.2.val))

theorem sparseSlices_eq (axes : List Axis) (extra : List String) (flat : List (Nat × FVal V)) :
    sparseSlices (extraSizes axes extra) extra (keptAxes axes extra) axes flat =
      (List.range (Writer.prod (extraSizes axes extra))).map fun s =>
        .sparseHist (keptAxes axes extra) (sliceEntries axes extra flat s) := rfl

theorem sortFlat_perm {α : Type} (l : List (Nat × α)) : (sortFlat l).Perm l := pySort_perm _

theorem sliceEntries_perm (axes : List Axis) (extra : List String) (flat : List (Nat × FVal V)) (s : Nat) :
    (sliceEntries axes extra flat s).Perm
      ((((entries axes flat).filter (valid axes (extra.map (pos axes)))).filter fun e =>
        (placeOf true axes extra e).1 = s).map fun e => (placeOf true axes extra e).2) := by
  unfold sliceEntries
  dsimp only
  refine (sortFlat_perm _).trans ?_
  rw [run_eq]
  · have h1 : (entries axes (sortFlat flat)).Perm (entries axes flat) := (sortFlat_perm flat).map _
    have h2 := (h1.filter (valid axes (extra.map (pos axes)))).map
      fun e => (Writer.ravel (extraSizes axes extra) (regular axes (extra.map (pos axes)) e), e)
    have h3 := (((pySort_perm (le := fun a b : Nat × MEntry V => decide (a.1 ≤ b.1)) _).trans h2).filter
      (fun e => decide (e.1 = s))).map fun e : Nat × MEntry V =>
        (Writer.ravel (dims true (keptAxes axes extra)) ((kept axes extra).map fun p => e.2.idx.getD p 0), e.2.val)
    refine h3.trans (List.Perm.of_eq ?_)
    rw [List.filter_map, List.map_map]
    rfl
  · have := pySort_pairwise (le := fun a b : Nat × MEntry V => decide (a.1 ≤ b.1))
      (by intro a b c h1 h2; simp only [decide_eq_true_eq] at *; omega)
      (by intro a b; simp only [Bool.or_eq_true, decide_eq_true_eq]; omega)
      (((entries axes (sortFlat flat)).filter (valid axes (extra.map (pos axes)))).map
        fun e => (Writer.ravel (extraSizes axes extra) (regular axes (extra.map (pos axes)) e), e))
    exact this.imp fun h => by simpa using h

/-- dropping the flow bins of the slice -/
theorem dropFlow_place {e : MEntry V} (he : IsEntry axes e) (l : List (Nat × FVal V)) :
    dropFlow (keptAxes axes extra) ((placeOf true axes extra e).2 :: l) =
      (if valid axes (kept axes extra) e then [(placeOf false axes extra e).2] else []) ++
        dropFlow (keptAxes axes extra) l := by
  have hk := kept_grid (extra := extra) he
  have hz : (keptAxes axes extra).zip ((kept axes extra).map fun p => e.idx.getD p 0) =
      (kept axes extra).map fun p => (axisAt axes p, e.idx.getD p 0) := by
    unfold keptAxes
    rw [List.zip_map']
  unfold dropFlow
  rw [List.filterMap_cons]
  dsimp only [placeOf]
  rw [if_pos rfl, unravel_ravel hk, hz]
  have hc : ((kept axes extra).map fun p => (axisAt axes p, e.idx.getD p 0)).all
      (fun x => decide (x.1.off ≤ x.2) && decide (x.2 < x.1.off + x.1.size)) = valid axes (kept axes extra) e := by
    unfold valid inside
    rw [List.all_map]; rfl
  rw [hc, List.map_map]
  cases valid axes (kept axes extra) e with
  | false => simp
  | true =>
    simp only [if_true, List.singleton_append, Bool.false_eq_true, if_false]
    rfl

theorem dropFlow_map (es : List (MEntry V)) (he : ∀ e ∈ es, IsEntry axes e) :
    dropFlow (keptAxes axes extra) (es.map fun e => (placeOf true axes extra e).2) =
      (es.filter (valid axes (kept axes extra))).map fun e => (placeOf false axes extra e).2 := by
  induction es with
  | nil => rfl
  | cons e es ih =>
    rw [List.map_cons, dropFlow_place (he e (by simp)), ih fun x hx => he x (by simp [hx])]
    cases h : valid axes (kept axes extra) e with
    | false => rw [List.filter_cons_of_neg (by simp [h])]; rfl
    | true => rw [List.filter_cons_of_pos (by simp [h])]; rfl

/-- the flattened slice of a systematic: its share of the placed entries -/
theorem slice_csr {flat : List (Nat × FVal V)} (hr : ∀ e ∈ flat, e.1 < Writer.prod (dims true axes)) (flow : Bool) (s : Nat) :
    ((HIn.sparseHist (keptAxes axes extra) (sliceEntries axes extra flat s)).flatCsr flow).2.Perm
      (((placed flow axes extra flat).filter fun e => e.1 = s).map (·.2)) := by
  have hsl := sliceEntries_perm axes extra flat s
  cases flow with
  | true =>
    refine (sortFlat_perm _).trans ?_
    rw [if_pos rfl]
    refine hsl.trans (List.Perm.of_eq ?_)
    unfold placed
    rw [List.filter_map, List.map_map]
    rfl
  | false =>
    refine (sortFlat_perm _).trans ?_
    rw [if_neg (by simp)]
    refine (hsl.filterMap _).trans (List.Perm.of_eq ?_)
    refine (dropFlow_map _ fun e he => ?_).trans ?_
    · exact entries_mem hr (List.mem_filter.1 (List.mem_filter.1 he).1).1
    · unfold placed
      rw [List.filter_map, List.map_map, List.filter_filter, List.filter_filter, List.filter_filter]
      show List.map (fun e => (placeOf false axes extra e).2) _ = List.map (fun e => (placeOf false axes extra e).2) _
      congr 1
      refine List.filter_congr fun e _ => ?_
      have hv : valid axes (if false = true then extra.map (pos axes) else extra.map (pos axes) ++ kept axes extra) e =
          (valid axes (extra.map (pos axes)) e && valid axes (kept axes extra) e) := by
        unfold valid
        rw [if_neg (by simp), List.all_append]
      rw [hv]
      have h1 : (placeOf true axes extra e).1 = (placeOf false axes extra e).1 := rfl
      simp only [Function.comp, h1]
      cases valid axes (extra.map (pos axes)) e <;> cases valid axes (kept axes extra) e <;> simp

/-- different entries have different places -/
theorem place_inj {flow : Bool} {e e' : MEntry V} (he : IsEntry axes e) (he' : IsEntry axes e')
    (hv : valid axes (if flow then extra.map (pos axes) else extra.map (pos axes) ++ kept axes extra) e = true)
    (hv' : valid axes (if flow then extra.map (pos axes) else extra.map (pos axes) ++ kept axes extra) e' = true)
    (h1 : (placeOf flow axes extra e).1 = (placeOf flow axes extra e').1)
    (h2 : (placeOf flow axes extra e).2.1 = (placeOf flow axes extra e').2.1) : e.idx = e'.idx := by
  have hve : valid axes (extra.map (pos axes)) e = true ∧ valid axes (extra.map (pos axes)) e' = true := by
    cases flow with
    | true => exact ⟨hv, hv'⟩
    | false =>
      refine ⟨valid_iff.2 fun p hp => valid_iff.1 hv p ?_, valid_iff.2 fun p hp => valid_iff.1 hv' p ?_⟩ <;>
        exact List.mem_append_left _ hp
  have hE : ∀ p ∈ extra.map (pos axes), e.idx.getD p 0 = e'.idx.getD p 0 := by
    have := ravel_inj' (regular_grid hve.1) (regular_grid hve.2) h1
    unfold regular at this
    intro p hp
    have := List.map_inj_left.1 this p hp
    have a := valid_iff.1 hve.1 p hp
    have b := valid_iff.1 hve.2 p hp
    omega
  have hK : ∀ p ∈ kept axes extra, e.idx.getD p 0 = e'.idx.getD p 0 := by
    cases flow with
    | true =>
      have := ravel_inj' (kept_grid he) (kept_grid he') h2
      exact fun p hp => List.map_inj_left.1 this p hp
    | false =>
      have k1 : valid axes (kept axes extra) e = true := valid_iff.2 fun p hp => valid_iff.1 hv p (List.mem_append_right _ hp)
      have k2 : valid axes (kept axes extra) e' = true := valid_iff.2 fun p hp => valid_iff.1 hv' p (List.mem_append_right _ hp)
      have := ravel_inj' (keptAxes_size axes extra ▸ regular_grid k1) (keptAxes_size axes extra ▸ regular_grid k2) h2
      unfold regular at this
      intro p hp
      have := List.map_inj_left.1 this p hp
      have a := valid_iff.1 k1 p hp
      have b := valid_iff.1 k2 p hp
      omega
  have hl : ∀ x : MEntry V, IsEntry axes x → x.idx.length = axes.length := fun x hx => by
    rw [length_of_mem_grid hx]; simp [dims]
  refine List.ext_getElem ((hl e he).trans (hl e' he').symm) fun p hp hp' => ?_
  have hpl : p < axes.length := by rw [← hl e he]; exact hp
  have : e.idx.getD p 0 = e'.idx.getD p 0 := by
    by_cases hm : p ∈ extra.map (pos axes)
    · exact hE p hm
    · exact hK p (List.mem_filter.2 ⟨List.mem_range.2 hpl, by simpa using hm⟩)
  rw [List.getD_eq_getElem?_getD, List.getElem?_eq_getElem hp, List.getD_eq_getElem?_getD, List.getElem?_eq_getElem hp'] at this
  exact this

theorem placed_nodup {flat : List (Nat × FVal V)}
    (hr : ∀ e ∈ flat, e.1 < Writer.prod (dims true axes)) (hn : (flat.map (·.1)).Nodup) (flow : Bool) :
    ((placed flow axes extra flat).map fun e => (e.1, e.2.1)).Nodup := by
  have hes : ((entries axes flat).map (·.idx)).Nodup := by
    unfold entries
    rw [List.map_map]
    have : (flat.map fun e => unravel (dims true axes) e.1) = (flat.map (·.1)).map (unravel (dims true axes)) := by
      rw [List.map_map]; rfl
    show (flat.map fun e => unravel (dims true axes) e.1).Nodup
    rw [this]
    refine List.Nodup.map_on ?_ hn
    intro i hi j hj e
    obtain ⟨x, hx, rfl⟩ := List.mem_map.1 hi
    obtain ⟨y, hy, rfl⟩ := List.mem_map.1 hj
    rw [← ravel_unravel (hr x hx), ← ravel_unravel (hr y hy), e]
  unfold placed
  rw [List.map_map]
  have hes2 := List.Nodup.sublist (List.Sublist.map (fun e : MEntry V => e.idx) (List.filter_sublist (l := entries axes flat)
    (p := valid axes (if flow then extra.map (pos axes) else extra.map (pos axes) ++ kept axes extra)))) hes
  refine List.Nodup.map_on ?_ (List.Nodup.of_map _ hes2)
  intro e he e' he' hee
  obtain ⟨m1, v1⟩ := List.mem_filter.1 he
  obtain ⟨m2, v2⟩ := List.mem_filter.1 he'
  simp only [Function.comp, Prod.mk.injEq] at hee
  have := place_inj (entries_mem hr m1) (entries_mem hr m2) v1 v2 hee.1 hee.2
  exact List.inj_on_of_nodup_map hes m1 m2 this

end

end Verif.Batched
