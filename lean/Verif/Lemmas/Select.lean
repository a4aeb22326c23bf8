import Verif.Lemmas.OpSum
import Verif.Lemmas.Mappings

/-! How the constructor and the selection of a term act on the axes. -/

namespace Verif.Mappings

open Verif.ABCD Verif.Grid

variable {V : Type}

/-- an axis with one more edge than bins and increasing edges -/
def AxisOk [LinearOrder V] (a : Axis V) : Prop := a.edges.length = a.size + 1 ∧ a.edges.IsChain (· < ·)

namespace Spec

/-- first bin and end of the bins that a selection asks for, on an axis of `n` bins -/
def range (n : Nat) : Option Pick → Nat × Nat
  | none => (0, n)
  | some (.int k) => let m := (if k < 0 then k + n else k).toNat; (m, m + 1)
  | some (.slc start stop _) => ((start.getD 0).toNat, (stop.getD n).toNat)

end Spec

/-- the effect of a selection on an axis and on the tensor -/
theorem selectAxis_spec [LinearOrder V] (a : Axis V) (ha : AxisOk a) (p : Pick) (hp : ∀ s e st, p ≠ .slc s e (some st))
    (o : Option (Axis V)) (h : selectAxis a p = .ok o) :
    (Spec.range a.size (some p)).2 ≤ a.size ∧
    p.positions a.size = .ok (o.isSome, (List.range ((Spec.range a.size (some p)).2 - (Spec.range a.size (some p)).1)).map
      ((Spec.range a.size (some p)).1 + ·)) ∧
    ∀ a', o = some a' → a'.name = a.name ∧
      a'.size = (Spec.range a.size (some p)).2 - (Spec.range a.size (some p)).1 ∧ AxisOk a' ∧
      (Spec.range a.size (some p)).1 ≤ (Spec.range a.size (some p)).2 ∧
      ∀ j, j ≤ (Spec.range a.size (some p)).2 - (Spec.range a.size (some p)).1 →
        a'.edges[j]? = a.edges[(Spec.range a.size (some p)).1 + j]? := by
  obtain ⟨hal, hac⟩ := ha
  cases p with
  | int k =>
    simp only [selectAxis] at h
    split at h
    · rename_i hk
      cases h
      simp only [Spec.range]
      refine ⟨?_, ?_, fun a' h => nomatch h⟩
      · split <;> omega
      · simp only [Pick.positions]
        by_cases hk0 : k < 0
        · rw [if_neg (by omega), if_pos (by omega), if_pos hk0]
          simp
        · rw [if_pos (by omega), if_neg hk0]
          simp
    · exact nomatch h
  | slc start stop step =>
    cases step with
    | some st => exact absurd rfl (hp start stop st)
    | none =>
      have hfull : start = none → stop = none → o = some a →
          (Spec.range a.size (some (.slc start stop none))).2 ≤ a.size ∧
          (Pick.slc start stop none).positions a.size = .ok (o.isSome,
            (List.range ((Spec.range a.size (some (.slc start stop none))).2 - (Spec.range a.size (some (.slc start stop none))).1)).map
            ((Spec.range a.size (some (.slc start stop none))).1 + ·)) ∧
          ∀ a', o = some a' → a'.name = a.name ∧
            a'.size = (Spec.range a.size (some (.slc start stop none))).2 - (Spec.range a.size (some (.slc start stop none))).1 ∧
            AxisOk a' ∧
            (Spec.range a.size (some (.slc start stop none))).1 ≤ (Spec.range a.size (some (.slc start stop none))).2 ∧
            ∀ j, j ≤ (Spec.range a.size (some (.slc start stop none))).2 - (Spec.range a.size (some (.slc start stop none))).1 →
              a'.edges[j]? = a.edges[(Spec.range a.size (some (.slc start stop none))).1 + j]? := by
        intro hs he ho
        subst hs; subst he; subst ho
        refine ⟨by simp [Spec.range], by simp [Pick.positions, Spec.range], ?_⟩
        intro a' ha'
        cases ha'
        exact ⟨rfl, by simp [Spec.range], ⟨hal, hac⟩, by simp [Spec.range], fun j _ => by simp [Spec.range]⟩
      have hcut : ∀ (x y : Int), start.getD 0 = x → stop.getD a.size = y → 0 ≤ x ∧ x < y ∧ y ≤ a.size →
          o = some (cutAxis a x.toNat y.toNat) →
          (Spec.range a.size (some (.slc start stop none))).2 ≤ a.size ∧
          (Pick.slc start stop none).positions a.size = .ok (o.isSome,
            (List.range ((Spec.range a.size (some (.slc start stop none))).2 - (Spec.range a.size (some (.slc start stop none))).1)).map
            ((Spec.range a.size (some (.slc start stop none))).1 + ·)) ∧
          ∀ a', o = some a' → a'.name = a.name ∧
            a'.size = (Spec.range a.size (some (.slc start stop none))).2 - (Spec.range a.size (some (.slc start stop none))).1 ∧
            AxisOk a' ∧
            (Spec.range a.size (some (.slc start stop none))).1 ≤ (Spec.range a.size (some (.slc start stop none))).2 ∧
            ∀ j, j ≤ (Spec.range a.size (some (.slc start stop none))).2 - (Spec.range a.size (some (.slc start stop none))).1 →
              a'.edges[j]? = a.edges[(Spec.range a.size (some (.slc start stop none))).1 + j]? := by
        intro x y hx hy hxy ho
        have hr : Spec.range a.size (some (.slc start stop none)) = (x.toNat, y.toNat) := by
          simp only [Spec.range, hx, hy]
        rw [hr]
        refine ⟨by simp only; omega, ?_, ?_⟩
        · have hb : ∀ s : Int, 0 ≤ s → s ≤ a.size → bound a.size s = s.toNat := by
            intro s h1 h2
            simp only [bound]
            rw [if_neg (by omega)]; omega
          subst ho
          cases start <;> cases stop <;> simp only [Option.getD_none, Option.getD_some] at hx hy <;> subst hx <;> subst hy <;>
            simp only [Pick.positions] <;> (try rw [hb _ (by omega) (by omega)]) <;> (try rw [hb _ (by omega) (by omega)]) <;>
            simp
        · intro a' ha'
          rw [ho] at ha'
          cases ha'
          have hedge : ∀ j, j ≤ y.toNat - x.toNat →
              ((a.edges.take (y.toNat + 1)).drop x.toNat)[j]? = a.edges[x.toNat + j]? := by
            intro j hj
            rw [List.getElem?_drop, List.getElem?_take, if_pos (by omega)]
          refine ⟨rfl, rfl, ⟨?_, ?_⟩, by simp only; omega, hedge⟩
          · show ((a.edges.take (y.toNat + 1)).drop x.toNat).length = y.toNat - x.toNat + 1
            rw [List.length_drop, List.length_take, hal]
            omega
          · show ((a.edges.take (y.toNat + 1)).drop x.toNat).IsChain (· < ·)
            rw [List.isChain_iff_pairwise] at hac ⊢
            exact (hac.sublist (List.take_sublist _ _)).sublist (List.drop_sublist _ _)
      cases start with
      | none =>
        cases stop with
        | none =>
          simp only [selectAxis] at h
          cases h
          exact hfull rfl rfl rfl
        | some e =>
          simp only [selectAxis] at h
          split at h
          · rename_i hxy
            cases h
            exact hcut _ _ rfl rfl hxy rfl
          · exact nomatch h
      | some s =>
        simp only [selectAxis] at h
        split at h
        · rename_i hxy
          cases h
          exact hcut _ _ rfl rfl hxy rfl
        · exact nomatch h

/-- the axis that remains -/
def selOf (sel : Dict String Pick) (a : Axis V) : Option (Axis V) :=
  match sel.get? a.name with
  | none => some a
  | some p => match selectAxis a p with
    | .ok o => o
    | .error _ => none

theorem selectAxis_name (a : Axis V) (p : Pick) (a' : Axis V) (h : selectAxis a p = .ok (some a')) : a'.name = a.name := by
  cases p with
  | int k => simp only [selectAxis] at h; split at h <;> exact nomatch h
  | slc start stop step =>
    have key : (if 0 ≤ start.getD 0 ∧ start.getD 0 < stop.getD a.size ∧ stop.getD a.size ≤ a.size then
      match step with
      | none => (.ok (some (cutAxis a (start.getD 0).toNat (stop.getD a.size).toNat)) : Res (Option (Axis V)))
      | some st =>
        if 1 ≤ st ∧ st ≤ stop.getD a.size - start.getD 0 then .ok (some (mergeAxis a (start.getD 0).toNat
          (stop.getD a.size).toNat st.toNat)) else .error .value
      else .error .index) = .ok (some a') → a'.name = a.name := by
      intro h
      split at h
      · cases step with
        | none => cases h; rfl
        | some st =>
          dsimp only at h
          split at h
          · cases h; rfl
          · exact nomatch h
      · exact nomatch h
    cases start with
    | none =>
      cases stop with
      | none =>
        cases step with
        | none => simp only [selectAxis] at h; cases h; rfl
        | some st => exact key h
      | some e => exact key h
    | some s => exact key h

theorem histSelect_spec (axs h : List (Axis V)) (k : String) (p : Pick) (hn : (axs.map (·.name)).Nodup)
    (hok : histSelect axs k p = .ok h) :
    (∃ a ∈ axs, a.name = k) ∧ (∀ a ∈ axs, a.name = k → ∃ o, selectAxis a p = .ok o) ∧
      h = axs.filterMap fun a => if a.name = k then (match selectAxis a p with | .ok o => o | .error _ => none) else some a := by
  induction axs generalizing h with
  | nil => exact nomatch hok
  | cons a axs ih =>
    rw [List.map_cons, List.nodup_cons] at hn
    simp only [histSelect] at hok
    by_cases hk : a.name = k
    · rw [if_pos hk] at hok
      have hrest : ∀ b ∈ axs, b.name ≠ k := fun b hb hbk => hn.1 (by
        rw [hk, ← hbk]; exact List.mem_map_of_mem hb)
      have hid : (axs.filterMap fun a => if a.name = k then (match selectAxis a p with | .ok o => o | .error _ => none)
          else some a) = axs := by
        rw [List.filterMap_congr (g := some) (fun b hb => by rw [if_neg (hrest b hb)]), List.filterMap_some]
      refine ⟨⟨a, by simp, hk⟩, ?_, ?_⟩
      · intro b hb hbk
        rcases List.mem_cons.1 hb with rfl | hb
        · cases hs : selectAxis b p with
          | error e => rw [hs] at hok; exact nomatch hok
          | ok o => exact ⟨o, rfl⟩
        · exact absurd hbk (hrest b hb)
      · rw [List.filterMap_cons, if_pos hk]
        cases hs : selectAxis a p with
        | error e => rw [hs] at hok; exact nomatch hok
        | ok o =>
          rw [hs] at hok
          cases o with
          | none => cases hok; exact hid.symm
          | some a' => cases hok; simp only; rw [hid]
    · rw [if_neg hk] at hok
      cases hr : histSelect axs k p with
      | error e => rw [hr] at hok; exact nomatch hok
      | ok h' =>
        rw [hr] at hok
        cases hok
        obtain ⟨⟨b, hb, hbk⟩, h2, h3⟩ := ih h' hn.2 hr
        refine ⟨⟨b, List.mem_cons_of_mem _ hb, hbk⟩, ?_, ?_⟩
        · intro b hb hbk
          rcases List.mem_cons.1 hb with rfl | hb
          · exact absurd hbk hk
          · exact h2 b hb hbk
        · rw [List.filterMap_cons, if_neg hk, ← h3]

theorem selOf_name (sel : Dict String Pick) (a a' : Axis V) (h : selOf sel a = some a') : a'.name = a.name := by
  unfold selOf at h
  split at h
  · cases h; rfl
  · split at h
    · rename_i hs
      subst h
      exact selectAxis_name a _ a' hs
    · exact nomatch h

theorem filterMap_names (axs : List (Axis V)) (S : Axis V → Option (Axis V)) (hS : ∀ a a', S a = some a' → a'.name = a.name) :
    ((axs.filterMap S).map (·.name)).Sublist (axs.map (·.name)) := by
  induction axs with
  | nil => simp
  | cons a axs ih =>
    rw [List.filterMap_cons, List.map_cons]
    cases h : S a with
    | none => exact ih.cons _
    | some a' =>
      rw [List.map_cons, hS a a' h]
      exact ih.cons_cons _

theorem histSelectAll_spec (axs h : List (Axis V)) (sel : Dict String Pick) (hn : (axs.map (·.name)).Nodup)
    (hk : (Dict.keys sel).Nodup) (hok : histSelectAll axs sel = .ok h) :
    (∀ a ∈ axs, ∀ p, sel.get? a.name = some p → ∃ o, selectAxis a p = .ok o) ∧ h = axs.filterMap (selOf sel) := by
  induction sel generalizing axs h with
  | nil =>
    simp only [histSelectAll] at hok
    cases hok
    constructor
    · intro a _ p hp
      exact nomatch hp
    · exact (List.filterMap_some).symm
  | cons kp sel ih =>
    obtain ⟨k, p⟩ := kp
    simp only [histSelectAll] at hok
    cases h1 : histSelect axs k p with
    | error e => rw [h1] at hok; exact nomatch hok
    | ok axs' =>
      rw [h1] at hok
      dsimp only at hok
      split at hok
      · exact nomatch hok
      obtain ⟨-, h3, h4⟩ := histSelect_spec axs axs' k p hn h1
      have hkk : k ∉ Dict.keys sel := by
        simp only [Dict.keys, List.map_cons, List.nodup_cons] at hk
        exact hk.1
      have hk' : (Dict.keys sel).Nodup := by
        simp only [Dict.keys, List.map_cons, List.nodup_cons] at hk
        exact hk.2
      let S : Axis V → Option (Axis V) := fun a => if a.name = k then
        (match selectAxis a p with | .ok o => o | .error _ => none) else some a
      have hSn : ∀ a a', S a = some a' → a'.name = a.name := by
        intro a a' h
        simp only [S] at h
        split at h
        · split at h
          · rename_i hs
            subst h; exact selectAxis_name a p a' hs
          · exact nomatch h
        · cases h; rfl
      have hn' : (axs'.map (·.name)).Nodup := by
        rw [h4]
        exact hn.sublist (filterMap_names axs S hSn)
      obtain ⟨h5, h6⟩ := ih axs' h hn' hk' hok
      constructor
      · intro a ha q hq
        simp only [Dict.get?] at hq
        split at hq
        · rename_i hka
          cases hq
          exact h3 a ha hka.symm
        · rename_i hka
          refine h5 a ?_ q hq
          rw [h4, List.mem_filterMap]
          exact ⟨a, ha, by rw [if_neg (fun h => hka h.symm)]⟩
      · rw [h6, h4, List.filterMap_filterMap]
        apply List.filterMap_congr
        intro a ha
        simp only [selOf, Dict.get?]
        by_cases hka : a.name = k
        · rw [if_pos hka, if_pos hka.symm]
          dsimp only
          cases hs : selectAxis a p with
          | error e => rfl
          | ok o =>
            cases o with
            | none => rfl
            | some a' =>
              have hna : Dict.get? sel a'.name = none := by
                rw [Dict.get?_eq_none_iff, selectAxis_name a p a' hs, hka]; exact hkk
              simp only [Option.bind_some, selOf, hna]
        · rw [if_neg hka, if_neg (fun h => hka h.symm)]
          rfl

end Verif.Mappings
