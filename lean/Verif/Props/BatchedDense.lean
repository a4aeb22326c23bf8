import Verif.Props.Batched

/-!
C12 for dense histograms: the slices along the extra axes.
-/

namespace Verif.Batched

open Verif.Logk Verif.Writer Verif.Writer.M Verif.Grid

variable {V : Type} [Field V] [LinearOrder V]

/-! ### Specification -/

/-- the bin of the full histogram that belongs to the bins `i` of the extra axes, which are regular bins, and the bins `j` of the
other axes; underflow bins are counted on all axes if `flow`, on none otherwise -/
def Spec.sliceIndex (axes : List Axis) (extra : List String) (flow : Bool) (i j : List Nat) : List Nat :=
  axes.map fun a =>
    if a.name ∈ extra.map some then i.getD (extra.idxOf (a.name.getD "")) 0 + if flow then a.off else 0
    else j.getD (((Spec.others axes extra).map (·.name)).idxOf a.name) 0

/-- `h'` holds the part of the histogram `(axes, vals, vars)` in the bins `i` of the extra axes -/
def Spec.isSlice (axes : List Axis) (vals vars : Bool → List (FVal V)) (extra : List String) (i : List Nat) (h' : HIn V) : Prop :=
  ∃ v w, h' = .hist (Spec.others axes extra) v w ∧ ∀ flow, ∀ j ∈ grid (dims flow (Spec.others axes extra)),
    (v flow)[Writer.ravel (dims flow (Spec.others axes extra)) j]? =
      some ((vals flow).getD (Writer.ravel (dims flow axes) (Spec.sliceIndex axes extra flow i j)) (.fin 0)) ∧
    (w flow)[Writer.ravel (dims flow (Spec.others axes extra)) j]? =
      some ((vars flow).getD (Writer.ravel (dims flow axes) (Spec.sliceIndex axes extra flow i j)) (.fin 0))

/-! ### Proof -/

theorem weave_eq (P : Axis → Bool) (f : Axis → Nat) : ∀ (axes : List Axis) (j : List Nat), (axes.map (·.name)).Nodup →
    j.length = (axes.filter fun a => !P a).length →
    weave (axes.map fun a => if P a then some (f a) else none) j =
      axes.map fun a => if P a then f a else j.getD (((axes.filter fun a => !P a).map (·.name)).idxOf a.name) 0 := by
  intro axes
  induction axes with
  | nil => intro j _ _; rfl
  | cons a axes ih =>
    intro j hnd hj
    rw [List.map_cons, List.nodup_cons] at hnd
    rw [List.map_cons, List.map_cons]
    cases hP : P a with
    | true =>
      rw [List.filter_cons_of_neg (by simp [hP])] at hj ⊢
      simp only [if_true, weave]
      rw [ih j hnd.2 hj]
    | false =>
      rw [List.filter_cons_of_pos (by simp [hP])] at hj ⊢
      cases j with
      | nil => simp at hj
      | cons x j =>
        simp only [Bool.false_eq_true, if_false, weave]
        rw [ih j hnd.2 (by simpa using hj), List.map_cons, List.idxOf_cons_self]
        congr 1
        refine List.map_congr_left fun b hb => ?_
        have hne : a.name ≠ b.name := fun e => hnd.1 (e ▸ List.mem_map_of_mem hb)
        rw [List.idxOf_cons_ne _ hne]
        rfl

omit [LinearOrder V] in
theorem isSlice_of {axes : List Axis} {extra : List String} (hnamed : Named axes extra) (vals vars : Bool → List (FVal V)) (i : List Nat) :
    Spec.isSlice axes vals vars extra i (histSlice axes vals vars extra (Spec.others axes extra) i) := by
  refine ⟨_, _, rfl, fun flow j hj => ?_⟩
  have hlen : j.length = (axes.filter fun a => !decide (a.name ∈ extra.map some)).length := by
    have h1 := (mem_grid.1 hj).length_eq
    unfold Spec.others dims at h1
    rw [List.length_map] at h1
    rw [h1]
    congr 1
    exact List.filter_congr fun a _ => decide_not
  have hw : weave (sliceMask flow axes extra i) j = Spec.sliceIndex axes extra flow i j := by
    have := weave_eq (fun a => decide (a.name ∈ extra.map some))
      (fun a => i.getD (extra.idxOf (a.name.getD "")) 0 + if flow then a.off else 0) axes j hnamed.nodup hlen
    have e : (axes.filter fun a => !decide (a.name ∈ extra.map some)) = Spec.others axes extra := by
      unfold Spec.others
      exact List.filter_congr fun a _ => decide_not.symm
    rw [e] at this
    simp only [decide_eq_true_eq] at this
    exact this
  dsimp only
  constructor <;>
    rw [List.getElem?_map, List.getElem?_range (ravel_lt' hj), Option.map_some, unravel_ravel hj, hw]

omit [LinearOrder V] in
/-- C12: the slices of a histogram that is not sparse, or of a pair of such histograms.  There is one slice for every combination `i`
of bins of the extra axes, with the name of the combination and the other axes, and its contents and variances in every bin `j`, with
or without flow bins, are those of the bin `(i, j)` of the histogram. -/
theorem c12_slices_dense {axes : List Axis} {extra : List String} (hnamed : Named axes extra) (name : String)
    (vals vars : Bool → List (FVal V)) (vals' vars' : Bool → List (FVal V)) {i : List Nat}
    (hi : i ∈ grid ((Spec.extraAxes axes extra).map (·.size))) :
    (∃ slices, getSlices axes name extra (.single (.hist axes vals vars)) = .ok slices ∧
      ∃ h', slices[Writer.ravel ((Spec.extraAxes axes extra).map (·.size)) i]? =
          some (Spec.sysName name (Spec.extraAxes axes extra) i, .single h') ∧ Spec.isSlice axes vals vars extra i h') ∧
    (∃ slices, getSlices axes name extra (.pair (.hist axes vals vars) (.hist axes vals' vars')) = .ok slices ∧
      ∃ hu hd, slices[Writer.ravel ((Spec.extraAxes axes extra).map (·.size)) i]? =
          some (Spec.sysName name (Spec.extraAxes axes extra) i, .pair hu hd) ∧
        Spec.isSlice axes vals vars extra i hu ∧ Spec.isSlice axes vals' vars' extra i hd) := by
  have hk := ravel_lt' hi
  have hsub : subName name (Spec.extraAxes axes extra) (Writer.ravel ((Spec.extraAxes axes extra).map (·.size)) i) =
      Spec.sysName name (Spec.extraAxes axes extra) i := by
    unfold subName
    rw [unravel_ravel hi]
    rfl
  constructor
  · refine ⟨_, rfl, _, ?_, isSlice_of hnamed vals vars i⟩
    rw [extraAxes_eq hnamed, List.getElem?_zip_eq_some]
    refine ⟨?_, ?_⟩
    · rw [List.getElem?_map, List.getElem?_range hk, Option.map_some, hsub]
    · rw [List.map_map, List.getElem?_map, List.getElem?_range hk, Option.map_some]
      show some (SystIn.single (histSlice axes vals vars extra _ (unravel _ _))) = _
      rw [unravel_ravel hi]
      rfl
  · refine ⟨_, rfl, _, _, ?_, isSlice_of hnamed vals vars i, isSlice_of hnamed vals' vars' i⟩
    rw [extraAxes_eq hnamed, List.getElem?_zip_eq_some]
    refine ⟨?_, ?_⟩
    · rw [List.getElem?_map, List.getElem?_range hk, Option.map_some, hsub]
    · rw [List.getElem?_zipWith_eq_some]
      refine ⟨_, _, ?_, ?_, rfl⟩ <;>
        rw [List.getElem?_map, List.getElem?_range hk, Option.map_some, unravel_ravel hi] <;> rfl

/-- three axes, two of them sliced, one of these with an underflow bin: with flow bins, the bins 2 of `t` and 1 of `x` and bin 1 of `y` -/
example : Named [Ex.otherAx, Ex.chanAx, Ex.scaleAx] ["t", "x"] ∧
    [2, 1] ∈ grid ((Spec.extraAxes [Ex.otherAx, Ex.chanAx, Ex.scaleAx] ["t", "x"]).map (·.size)) ∧
    Spec.sliceIndex [Ex.otherAx, Ex.chanAx, Ex.scaleAx] ["t", "x"] true [2, 1] [1] = [1, 2, 2] ∧
    Spec.sliceIndex [Ex.otherAx, Ex.chanAx, Ex.scaleAx] ["t", "x"] false [2, 1] [1] = [1, 1, 2] := by
  refine ⟨⟨by decide, by decide, by decide, by decide⟩, by decide +kernel, by decide +kernel, by decide +kernel⟩

end Verif.Batched
