import Verif.Props.ABCD

/-! C47: bin numbers counted from the back of an axis. -/

namespace Verif.ABCD

open Verif.ParamModels Verif.Grid

variable {V : Type}

/-- the selection with bin numbers counted from the front -/
def Spec.fromFront (axes : List (Axis V)) (sel : Sel) : Sel :=
  sel.map fun s => (s.1, if s.2 < 0 then s.2 + (((axes.find? fun a => a.name == s.1).map fun a => (a.size : Int)).getD 0) else s.2)

theorem choices_front (n : Nat) (i : Int) (h : -(n : Int) ≤ i) (hi : i < 0) : choices n (some i) = choices n (some (i + n)) := by
  simp only [choices, wrapIdx]
  rw [if_neg (by omega), if_pos ⟨h, hi⟩, if_pos (by omega)]

theorem allChoices_congr (ns : List Nat) (ss ts : List (Option Int)) (hl : ss.length = ts.length)
    (h : ∀ (k n : Nat) (s t : Option Int), ns[k]? = some n → ss[k]? = some s → ts[k]? = some t → choices n s = choices n t) :
    allChoices ns ss = allChoices ns ts := by
  induction ns generalizing ss ts with
  | nil => cases ss <;> cases ts <;> rfl
  | cons n ns ih =>
    cases ss with
    | nil => cases ts with
      | nil => rfl
      | cons => simp at hl
    | cons s ss => cases ts with
      | nil => simp at hl
      | cons t ts =>
        rw [allChoices, allChoices, h 0 n s t rfl rfl rfl, ih ss ts (by simpa using hl) fun k n s t a b c => h (k + 1) n s t a b c]

theorem slices_front (axes : List (Axis V)) (hn : (axes.map (·.name)).Nodup) (sel : Sel)
    (hsel : ∀ s ∈ sel, ∀ a ∈ axes, a.name = s.1 → -(a.size : Int) ≤ s.2) (sl tl : List (Option Int)) (hl : sl.length = tl.length)
    (h : ∀ (k : Nat) (a : Axis V) (s t : Option Int), axes[k]? = some a → sl[k]? = some s → tl[k]? = some t →
      choices a.size s = choices a.size t) :
    (∃ e, slices axes sel sl = .error e ∧ slices axes (Spec.fromFront axes sel) tl = .error e) ∨
    ∃ sl' tl', slices axes sel sl = .ok sl' ∧ slices axes (Spec.fromFront axes sel) tl = .ok tl' ∧ sl'.length = tl'.length ∧
      ∀ (k : Nat) (a : Axis V) (s t : Option Int), axes[k]? = some a → sl'[k]? = some s → tl'[k]? = some t →
        choices a.size s = choices a.size t := by
  induction sel generalizing sl tl with
  | nil => exact .inr ⟨sl, tl, rfl, rfl, hl, h⟩
  | cons s sel ih =>
    obtain ⟨m, i⟩ := s
    unfold Spec.fromFront
    rw [List.map_cons, slices, slices]
    cases hp : axPos axes m with
    | none => exact .inl ⟨_, rfl, rfl⟩
    | some k =>
      dsimp only
      refine ih (fun s hs => hsel s (List.mem_cons_of_mem _ hs)) _ _ (by simp [hl]) ?_
      obtain ⟨a, ha, rfl⟩ := axPos_some hp
      intro k' a' s t ha' hs ht
      rw [List.getElem?_set] at hs ht
      by_cases hk : k = k'
      · subst hk
        rw [if_pos rfl] at hs ht
        have some_ite : ∀ (p : Prop) [Decidable p] (u v : Option Int), (if p then some u else none) = some v → v = u := by
          intro p _ u v hu
          by_cases hp : p
          · rw [if_pos hp] at hu; exact (Option.some.inj hu).symm
          · rw [if_neg hp] at hu; exact nomatch hu
        rw [some_ite _ _ _ hs, some_ite _ _ _ ht]
        cases Option.some.inj (ha.symm.trans ha')
        have hf : axes.find? (fun b => b.name == a.name) = some a := by
          cases hfi : axes.find? (fun b => b.name == a.name) with
          | none => exact absurd (beq_self_eq_true a.name) (List.find?_eq_none.1 hfi a (List.mem_of_getElem? ha))
          | some b =>
            have e1 : b.name = a.name := by simpa using List.find?_some hfi
            obtain ⟨kb, hkb⟩ := List.getElem?_of_mem (List.mem_of_find?_eq_some hfi)
            have := axes_name_inj hn hkb ha e1
            subst this
            exact hkb.symm.trans ha
        rw [hf]
        split_ifs with hneg
        · exact choices_front a.size i (hsel (a.name, i) (by simp) a (List.mem_of_getElem? ha) rfl) hneg
        · rfl
      · rw [if_neg hk] at hs ht
        exact h k' a' s t ha' hs ht

/-- A bin number counted from the back selects the bin with the number obtained by adding the number of bins: region `-1` is
the last bin. -/
theorem c47_negative_index (c : Chan V) (sel : Sel) (hn : (c.axes.map (·.name)).Nodup)
    (hsel : ∀ s ∈ sel, ∀ a ∈ c.axes, a.name = s.1 → -(a.size : Int) ≤ s.2) :
    localIndices c sel = localIndices c (Spec.fromFront c.axes sel) ∧
    ∀ s ∈ Spec.fromFront c.axes sel, (∃ a ∈ c.axes, a.name = s.1) → 0 ≤ s.2 := by
  constructor
  · unfold localIndices
    rcases slices_front c.axes hn sel hsel (List.replicate c.axes.length none) (List.replicate c.axes.length none) rfl
        (fun k a s t _ hs ht => by rw [Option.some.inj (hs.symm.trans ht)]) with ⟨e, h1, h2⟩ | ⟨sl, tl, h1, h2, hl, h⟩
    · rw [h1, h2]
    · rw [h1, h2]
      dsimp only
      rw [allChoices_congr (sizes c.axes) sl tl hl]
      intro k n s t hk hs ht
      unfold sizes at hk
      rw [List.getElem?_map] at hk
      obtain ⟨a, ha, rfl⟩ := Option.map_eq_some_iff.1 hk
      exact h k a s t ha hs ht
  · intro s hs ⟨a, ha, han⟩
    obtain ⟨r, hr, rfl⟩ := List.mem_map.1 hs
    dsimp only at han ⊢
    split_ifs with hneg
    · cases hfi : c.axes.find? (fun b => b.name == r.1) with
      | none => exact absurd (by simpa using han) (List.find?_eq_none.1 hfi a ha)
      | some b =>
        have := hsel r hr b (List.mem_of_find?_eq_some hfi) (by simpa using List.find?_some hfi)
        simp only [Option.map_some, Option.getD_some]
        omega
    · omega

/-- A case: the last bin of the second axis. -/
example : localIndices (⟨[⟨"x", 2, 4, [], []⟩, ⟨"y", 3, 5, [], []⟩], 7, false, false⟩ : Chan ℚ) [("y", -1)] = .ok [9, 12] ∧
    Spec.fromFront [(⟨"x", 2, 4, [], []⟩ : Axis ℚ), ⟨"y", 3, 5, [], []⟩] [("y", -1)] = [("y", 2)] := by
  constructor <;> rfl

end Verif.ABCD
