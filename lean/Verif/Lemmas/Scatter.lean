import Verif.Model.ParamModels
import Mathlib.Data.List.Nodup
import Mathlib.Data.List.Basic
import Mathlib.Tactic.Common

/-! Facts about scatter updates (tf.tensor_scatter_nd_update). -/

namespace Verif.ParamModels

variable {V : Type}

theorem foldl_set_length (es : List (Nat × V)) (l : List V) :
    (es.foldl (fun l e => l.set e.1 e.2) l).length = l.length := by
  induction es generalizing l with
  | nil => rfl
  | cons e es ih => rw [List.foldl_cons, ih, List.length_set]

theorem foldl_set_not_mem (es : List (Nat × V)) (l : List V) (j : Nat) (h : ∀ e ∈ es, e.1 ≠ j) :
    (es.foldl (fun l e => l.set e.1 e.2) l)[j]? = l[j]? := by
  induction es generalizing l with
  | nil => rfl
  | cons e es ih =>
    rw [List.foldl_cons, ih _ fun e' h' => h e' (List.mem_cons_of_mem _ h'), List.getElem?_set_ne (h e (by simp))]

theorem foldl_set_mem (es : List (Nat × V)) (l : List V) (hn : (es.map (·.1)).Nodup) (e : Nat × V) (he : e ∈ es)
    (hl : e.1 < l.length) : (es.foldl (fun l e => l.set e.1 e.2) l)[e.1]? = some e.2 := by
  induction es generalizing l with
  | nil => simp at he
  | cons x es ih =>
    rw [List.map_cons, List.nodup_cons] at hn
    rw [List.foldl_cons]
    rcases List.mem_cons.1 he with rfl | he
    · rw [foldl_set_not_mem, List.getElem?_set_self hl]
      intro e' he' hh
      exact hn.1 (hh ▸ List.mem_map_of_mem he')
    · exact ih _ hn.2 he (by simpa using hl)

theorem scatter1_ok_iff (base : List V) (idxs : List Nat) (upd : List V) :
    (∃ r, scatter1 base idxs upd = .ok r) ↔ idxs.length = upd.length ∧ ∀ i ∈ idxs, i < base.length := by
  unfold scatter1
  split_ifs with h1 h2
  · simp [h1]
  · simp only [List.any_eq_true, decide_eq_true_eq] at h2
    obtain ⟨i, hi, hle⟩ := h2
    simp only [exists_false, false_iff, not_and, not_forall, not_lt]
    exact fun _ => ⟨i, hi, hle⟩
  · simp only [List.any_eq_true, decide_eq_true_eq, not_exists, not_and, not_le] at h2
    simp only [Except.ok.injEq, exists_eq', true_iff]
    exact ⟨by omega, h2⟩

theorem scatter1_spec {base : List V} {idxs : List Nat} {upd r : List V} (h : scatter1 base idxs upd = .ok r) :
    r.length = base.length ∧ (∀ j, j ∉ idxs → r[j]? = base[j]?) ∧
    (idxs.Nodup → ∀ i j : Nat, idxs[i]? = some j → r[j]? = upd[i]?) := by
  have hok := (scatter1_ok_iff base idxs upd).1 ⟨r, h⟩
  unfold scatter1 at h
  split_ifs at h
  cases h
  refine ⟨foldl_set_length _ _, fun j hj => foldl_set_not_mem _ _ _ ?_, fun hn i j hi => ?_⟩
  · intro e he hh
    exact hj (hh ▸ (List.of_mem_zip he).1)
  · have hlt : i < idxs.length := (List.getElem?_eq_some_iff.1 hi).1
    have hu : i < upd.length := hok.1 ▸ hlt
    have hj : idxs[i] = j := (List.getElem?_eq_some_iff.1 hi).2
    have hmem : (j, upd[i]) ∈ idxs.zip upd := by
      have hz : i < (idxs.zip upd).length := by simp; omega
      have : (idxs.zip upd)[i] = (j, upd[i]) := by rw [List.getElem_zip, hj]
      exact this ▸ List.getElem_mem hz
    have := foldl_set_mem (idxs.zip upd) base ?_ (j, upd[i]) hmem (hok.2 j (List.mem_of_getElem? hi))
    · rw [this, List.getElem?_eq_getElem hu]
    · rw [List.map_fst_zip (by omega)]; exact hn

theorem foldl_upd_not_mem (es : List ((Nat × Nat) × V)) (f : Nat → Nat → V) (b p : Nat)
    (h : ∀ e ∈ es, e.1 ≠ (b, p)) : es.foldl scatterStep f b p = f b p := by
  induction es generalizing f with
  | nil => rfl
  | cons e es ih =>
    rw [List.foldl_cons, ih _ fun e' h' => h e' (List.mem_cons_of_mem _ h')]
    unfold scatterStep
    rw [if_neg]
    rintro ⟨rfl, rfl⟩
    exact h e (by simp) rfl

theorem foldl_upd_mem (es : List ((Nat × Nat) × V)) (f : Nat → Nat → V) (hn : (es.map (·.1)).Nodup)
    (e : (Nat × Nat) × V) (he : e ∈ es) : es.foldl scatterStep f e.1.1 e.1.2 = e.2 := by
  induction es generalizing f with
  | nil => simp at he
  | cons x es ih =>
    rw [List.map_cons, List.nodup_cons] at hn
    rw [List.foldl_cons]
    rcases List.mem_cons.1 he with rfl | he
    · rw [foldl_upd_not_mem]
      · unfold scatterStep; rw [if_pos ⟨rfl, rfl⟩]
      · intro e' he' hh
        exact hn.1 (List.mem_map.2 ⟨e', he', hh⟩)
    · exact ih _ hn.2 he

theorem scatter2_ok_iff [One V] (rows cols : Nat) (idxs : List (Nat × Nat)) (upd : List V) :
    (∃ r, scatter2 rows cols idxs upd = .ok r) ↔
      idxs.length = upd.length ∧ ∀ i ∈ idxs, i.1 < rows ∧ i.2 < cols := by
  unfold scatter2
  split_ifs with h1 h2
  · simp [h1]
  · simp only [List.any_eq_true, Bool.or_eq_true, decide_eq_true_eq] at h2
    obtain ⟨i, hi, hle⟩ := h2
    simp only [exists_false, false_iff, not_and, not_forall]
    exact fun _ => ⟨i, hi, by omega⟩
  · simp only [List.any_eq_true, Bool.or_eq_true, decide_eq_true_eq, not_exists, not_and] at h2
    simp only [Except.ok.injEq, exists_eq', true_iff]
    exact ⟨by omega, fun i hi => by have := h2 i hi; omega⟩

theorem scatter2_spec [One V] {rows cols : Nat} {idxs : List (Nat × Nat)} {upd : List V} {r : Rates V}
    (h : scatter2 rows cols idxs upd = .ok r) :
    r.rows = rows ∧ r.cols = cols ∧ (∀ b p, (b, p) ∉ idxs → r.val b p = 1) ∧
    (idxs.Nodup → ∀ (i : Nat) (b p : Nat), idxs[i]? = some (b, p) → upd[i]? = some (r.val b p)) := by
  have hok := (scatter2_ok_iff rows cols idxs upd).1 ⟨r, h⟩
  unfold scatter2 at h
  split_ifs at h
  cases h
  refine ⟨rfl, rfl, fun b p hj => foldl_upd_not_mem _ _ _ _ ?_, fun hn i b p hi => ?_⟩
  · intro e he hh
    exact hj (hh ▸ (List.of_mem_zip he).1)
  · have hlt : i < idxs.length := (List.getElem?_eq_some_iff.1 hi).1
    have hu : i < upd.length := hok.1 ▸ hlt
    have hj : idxs[i] = (b, p) := (List.getElem?_eq_some_iff.1 hi).2
    have hmem : ((b, p), upd[i]) ∈ idxs.zip upd := by
      have hz : i < (idxs.zip upd).length := by simp; omega
      have : (idxs.zip upd)[i] = ((b, p), upd[i]) := by rw [List.getElem_zip, hj]
      exact this ▸ List.getElem_mem hz
    have := foldl_upd_mem (idxs.zip upd) (fun _ _ => 1) ?_ ((b, p), upd[i]) hmem
    · rw [List.getElem?_eq_getElem hu]; exact congrArg some this.symm
    · rw [List.map_fst_zip (by omega)]; exact hn

theorem scatter2_mem [One V] {rows cols : Nat} {idxs : List (Nat × Nat)} {upd : List V} {r : Rates V}
    (h : scatter2 rows cols idxs upd = .ok r) (hn : idxs.Nodup) (e : (Nat × Nat) × V) (he : e ∈ idxs.zip upd) :
    r.val e.1.1 e.1.2 = e.2 := by
  have hok := (scatter2_ok_iff rows cols idxs upd).1 ⟨r, h⟩
  unfold scatter2 at h
  split_ifs at h
  cases h
  exact foldl_upd_mem _ _ (by rw [List.map_fst_zip (by omega)]; exact hn) e he

theorem flatten_sublist {α : Type} {l l' : List (List α)} (h : l.Sublist l') : l.flatten.Sublist l'.flatten := by
  induction h with
  | slnil => exact List.Sublist.refl _
  | @cons l1 l2 a _ ih => rw [List.flatten_cons]; exact ih.trans (List.sublist_append_right _ _)
  | @cons_cons l1 l2 a _ ih => rw [List.flatten_cons, List.flatten_cons]; exact List.Sublist.append (List.Sublist.refl _) ih

end Verif.ParamModels
