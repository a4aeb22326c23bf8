import Verif.Model.Py
import Mathlib.Data.List.Nodup
import Mathlib.Tactic.Common

/-! Helper lemmas about the dictionary model. -/

namespace Verif

namespace Dict
variable {κ ν : Type _} [DecidableEq κ]

@[simp] theorem get?_nil (k : κ) : get? ([] : Dict κ ν) k = none := rfl

theorem get?_set (d : Dict κ ν) (k k' : κ) (v : ν) :
    get? (set d k v) k' = if k = k' then some v else get? d k' := by
  induction d with
  | nil => simp [set, get?]
  | cons a d ih =>
    obtain ⟨a, w⟩ := a
    by_cases h : a = k
    · subst h
      by_cases h' : a = k' <;> simp [set, get?, h']
    · simp only [set, h, if_false, get?, ih]
      by_cases h' : a = k'
      · subst h'; simp [Ne.symm h]
      · simp [h']

@[simp] theorem get?_set_self (d : Dict κ ν) (k : κ) (v : ν) : get? (set d k v) k = some v := by
  simp [get?_set]

theorem get?_set_ne (d : Dict κ ν) {k k' : κ} (v : ν) (h : k ≠ k') : get? (set d k v) k' = get? d k' := by
  simp [get?_set, h]

theorem has_iff (d : Dict κ ν) (k : κ) : has d k = true ↔ ∃ v, get? d k = some v := by
  simp [has, Option.isSome_iff_exists]

theorem has_eq_false_iff (d : Dict κ ν) (k : κ) : has d k = false ↔ get? d k = none := by
  simp [has]

theorem has_set (d : Dict κ ν) (k k' : κ) (v : ν) : has (set d k v) k' = (decide (k = k') || has d k') := by
  simp only [has, get?_set]
  by_cases h : k = k' <;> simp [h]

theorem mem_keys_iff (d : Dict κ ν) (k : κ) : k ∈ keys d ↔ ∃ v, get? d k = some v := by
  induction d with
  | nil => simp [keys]
  | cons a d ih =>
    obtain ⟨a, w⟩ := a
    simp only [keys, List.map_cons, List.mem_cons] at ih ⊢
    by_cases h : a = k
    · subst h; simp [get?]
    · rw [ih]; simp [get?, h, Ne.symm h]

theorem mem_keys_iff_has (d : Dict κ ν) (k : κ) : k ∈ keys d ↔ has d k = true := by
  rw [mem_keys_iff, has_iff]

theorem get?_eq_none_iff (d : Dict κ ν) (k : κ) : get? d k = none ↔ k ∉ keys d := by
  rw [mem_keys_iff]
  cases get? d k <;> simp

theorem keys_set_of_mem (d : Dict κ ν) (k : κ) (v : ν) (h : k ∈ keys d) : keys (set d k v) = keys d := by
  induction d with
  | nil => simp [keys] at h
  | cons a d ih =>
    obtain ⟨a, w⟩ := a
    by_cases h' : a = k
    · simp [set, h', keys]
    · simp only [keys, List.map_cons, List.mem_cons] at h ih
      rcases h with h | h
      · exact absurd h.symm h'
      · simp [set, h', keys, ih h]

theorem keys_set_of_not_mem (d : Dict κ ν) (k : κ) (v : ν) (h : k ∉ keys d) : keys (set d k v) = keys d ++ [k] := by
  induction d with
  | nil => simp [keys, set]
  | cons a d ih =>
    obtain ⟨a, w⟩ := a
    simp only [keys, List.map_cons, List.mem_cons, not_or] at h ih
    simp [set, Ne.symm h.1, keys, ih h.2]

theorem set_of_not_mem (d : Dict κ ν) (k : κ) (v : ν) (h : k ∉ keys d) : set d k v = d ++ [(k, v)] := by
  induction d with
  | nil => simp [set]
  | cons a d ih =>
    obtain ⟨a, w⟩ := a
    simp only [keys, List.map_cons, List.mem_cons, not_or] at h ih
    simp [set, Ne.symm h.1, ih h.2]

theorem keys_set (d : Dict κ ν) (k : κ) (v : ν) :
    keys (set d k v) = if k ∈ keys d then keys d else keys d ++ [k] := by
  split_ifs with h
  · exact keys_set_of_mem d k v h
  · exact keys_set_of_not_mem d k v h

theorem nodup_keys_set (d : Dict κ ν) (k : κ) (v : ν) (h : (keys d).Nodup) : (keys (set d k v)).Nodup := by
  rw [keys_set]
  split_ifs with hk
  · exact h
  · rw [List.nodup_append]
    exact ⟨h, List.nodup_singleton k, by rintro a ha b hb; rw [List.mem_singleton] at hb; rintro rfl; exact hk (hb ▸ ha)⟩

theorem mem_of_get? (d : Dict κ ν) (k : κ) (v : ν) (h : get? d k = some v) : (k, v) ∈ d := by
  induction d with
  | nil => simp at h
  | cons a d ih =>
    obtain ⟨a, w⟩ := a
    simp only [get?] at h
    split_ifs at h with h'
    · simp_all
    · exact List.mem_cons_of_mem _ (ih h)

theorem get?_of_mem (d : Dict κ ν) (k : κ) (v : ν) (hn : (keys d).Nodup) (h : (k, v) ∈ d) : get? d k = some v := by
  induction d with
  | nil => simp at h
  | cons a d ih =>
    obtain ⟨a, w⟩ := a
    simp only [keys, List.map_cons, List.nodup_cons] at hn
    simp only [List.mem_cons, Prod.mk.injEq] at h
    simp only [get?]
    rcases h with ⟨rfl, rfl⟩ | h
    · simp
    · have : a ≠ k := by
        rintro rfl
        exact hn.1 (List.mem_map_of_mem (f := Prod.fst) h)
      simp [this, ih hn.2 h]

theorem get?_merge (d e : Dict κ ν) (k : κ) (hn : (keys e).Nodup) :
    get? (merge d e) k = (get? e k).or (get? d k) := by
  unfold merge
  induction e generalizing d with
  | nil => simp
  | cons a e ih =>
    obtain ⟨a, w⟩ := a
    simp only [keys, List.map_cons, List.nodup_cons] at hn
    rw [List.foldl_cons, ih _ hn.2, get?_set]
    by_cases h : a = k
    · subst h
      have : get? e a = none := by rw [get?_eq_none_iff]; exact hn.1
      simp [this, get?]
    · simp [h, get?]

end Dict

theorem mem_setAdd {α : Type _} [DecidableEq α] (s : List α) (x y : α) : y ∈ setAdd s x ↔ y ∈ s ∨ y = x := by
  unfold setAdd
  split_ifs with h
  · constructor
    · exact .inl
    · rintro (h' | rfl) <;> assumption
  · simp

theorem nodup_setAdd {α : Type _} [DecidableEq α] (s : List α) (x : α) (h : s.Nodup) : (setAdd s x).Nodup := by
  unfold setAdd
  split_ifs with hx
  · exact h
  · rw [List.nodup_append]
    exact ⟨h, List.nodup_singleton x, by rintro a ha b hb; rw [List.mem_singleton] at hb; rintro rfl; exact hx (hb ▸ ha)⟩

section sort
variable {α : Type _} {le : α → α → Bool}

theorem pyInsert_perm (x : α) (l : List α) : (pyInsert le x l).Perm (x :: l) := by
  induction l with
  | nil => exact .refl _
  | cons y l ih =>
    unfold pyInsert
    split
    · exact .refl _
    · exact (ih.cons y).trans (.swap x y l)

theorem pySort_perm (l : List α) : (pySort le l).Perm l := by
  induction l with
  | nil => exact .refl _
  | cons x l ih => exact (pyInsert_perm x _).trans (ih.cons x)

theorem pySort_pairwise (htr : ∀ a b c, le a b = true → le b c = true → le a c = true)
    (htot : ∀ a b, (le a b || le b a) = true) (l : List α) : (pySort le l).Pairwise (fun a b => le a b = true) := by
  induction l with
  | nil => exact .nil
  | cons x l ih =>
    show (pyInsert le x (pySort le l)).Pairwise _
    generalize pySort le l = m at ih
    induction m with
    | nil => simp [pyInsert]
    | cons y m ihm =>
      rw [List.pairwise_cons] at ih
      unfold pyInsert
      split
      · rename_i h
        refine List.pairwise_cons.2 ⟨fun z hz => ?_, List.pairwise_cons.2 ih⟩
        rcases List.mem_cons.1 hz with rfl | hz
        · exact h
        · exact htr _ _ _ h (ih.1 z hz)
      · rename_i h
        refine List.pairwise_cons.2 ⟨fun z hz => ?_, ihm ih.2⟩
        rcases List.mem_cons.1 ((pyInsert_perm x m).mem_iff.1 hz) with rfl | hz
        · have := htot z y
          simpa [h] using this
        · exact ih.1 z hz

theorem pySort_of_pairwise {l : List α} (h : l.Pairwise (fun a b => le a b = true)) : pySort le l = l := by
  induction l with
  | nil => rfl
  | cons x l ih =>
    rw [List.pairwise_cons] at h
    show pyInsert le x (pySort le l) = _
    rw [ih h.2]
    cases l with
    | nil => rfl
    | cons y l => simp [pyInsert, h.1 y (by simp)]

end sort

end Verif
