import Verif.Model.Mappings
import Verif.Props.Storage
import Mathlib.Data.List.Sort
import Mathlib.Data.List.Infix

/-! Facts about the segment ids of a rebinned axis. -/

namespace Verif.Mappings

open Verif.ABCD Verif.Grid

variable {V : Type}

section scan
variable [DecidableEq V]

theorem segScan_append (new : List V) (s : Int) (l r : List V) :
    segScan new s (l ++ r) = segScan new s l ++ segScan new (s + (l.countP (· ∈ new) : Nat)) r := by
  induction l generalizing s with
  | nil => simp [segScan]
  | cons v l ih =>
    simp only [List.cons_append, segScan, List.countP_cons]
    rw [ih]
    by_cases h : v ∈ new
    · simp only [h, if_true, decide_true]
      congr 3; push_cast; ring
    · simp [h]

theorem segScan_length (new : List V) (s : Int) (l : List V) : (segScan new s l).length = l.length := by
  induction l generalizing s with
  | nil => rfl
  | cons v l ih => simp [segScan, ih]

theorem segScan_none (new : List V) (s : Int) (l : List V) (h : ∀ v ∈ l, v ∉ new) :
    segScan new s l = List.replicate l.length s := by
  induction l with
  | nil => rfl
  | cons v l ih =>
    simp only [segScan, if_neg (h v (by simp)), List.length_cons, List.replicate_succ]
    rw [ih fun w hw => h w (List.mem_cons_of_mem _ hw)]

theorem segScan_ge (new : List V) (s : Int) (l : List V) : ∀ x ∈ segScan new s l, s ≤ x := by
  induction l generalizing s with
  | nil => simp [segScan]
  | cons v l ih =>
    intro x hx
    simp only [segScan, List.mem_cons] at hx
    have hs : s ≤ if v ∈ new then s + 1 else s := by split <;> omega
    rcases hx with rfl | hx
    · exact hs
    · exact hs.trans (ih _ x hx)

theorem segScan_le (new : List V) (s : Int) (l : List V) : ∀ x ∈ segScan new s l, x ≤ s + (l.countP (· ∈ new) : Nat) := by
  induction l generalizing s with
  | nil => simp [segScan]
  | cons v l ih =>
    intro x hx
    simp only [segScan, List.mem_cons] at hx
    rw [List.countP_cons]
    rcases hx with rfl | hx
    · by_cases h : v ∈ new <;> simp [h]
    · have := ih _ x hx
      by_cases h : v ∈ new
      · simp only [h, if_true, decide_true] at this ⊢; push_cast; omega
      · simp only [h, if_false, decide_false] at this ⊢; simpa using this

theorem segScan_sorted (new : List V) (s : Int) (l : List V) : (segScan new s l).IsChain (· ≤ ·) := by
  rw [List.isChain_iff_pairwise]
  induction l generalizing s with
  | nil => simp [segScan]
  | cons v l ih =>
    simp only [segScan, List.pairwise_cons]
    exact ⟨segScan_ge new _ l, ih _⟩

theorem segScan_last (new : List V) (s : Int) (l : List V) (h : l ≠ []) :
    (segScan new s l).getLast? = some (s + (l.countP (· ∈ new) : Nat)) := by
  induction l generalizing s with
  | nil => exact absurd rfl h
  | cons v l ih =>
    rw [List.countP_cons]
    rcases l with _ | ⟨w, l⟩
    · by_cases hv : v ∈ new <;> simp [segScan, hv]
    · simp only [segScan]
      rw [List.getLast?_cons_cons]
      have := ih (if v ∈ new then s + 1 else s) (by simp)
      simp only [segScan] at this
      rw [this]
      congr 1
      by_cases hv : v ∈ new
      · simp only [hv, if_true, decide_true]; push_cast; ring
      · simp [hv]

theorem segScan_getElem? (new : List V) (s : Int) (l : List V) (j : Nat) (h : j < l.length) :
    (segScan new s l)[j]? = some (s + ((l.take (j + 1)).countP (· ∈ new) : Nat)) := by
  have h1 : l = l.take (j + 1) ++ l.drop (j + 1) := (List.take_append_drop _ _).symm
  have hne : l.take (j + 1) ≠ [] := by
    intro h0
    have := congrArg List.length h0
    rw [List.length_take, List.length_nil] at this
    omega
  have h2 := segScan_last new s (l.take (j + 1)) hne
  conv_lhs => rw [h1, segScan_append]
  have hl : (segScan new s (l.take (j + 1))).length = j + 1 := by rw [segScan_length]; simp; omega
  rw [List.getElem?_append_left (by omega), ← h2, List.getLast?_eq_getElem?, hl]
  rfl

end scan

section sorted
variable [LinearOrder V]

/-- new edges that are a part of the old ones are the old edges filtered -/
theorem filter_new {old new : List V} (ho : old.IsChain (· < ·)) (hn : new.IsChain (· < ·)) (hsub : ∀ x ∈ new, x ∈ old) :
    old.filter (· ∈ new) = new := by
  rw [List.isChain_iff_pairwise] at ho hn
  refine List.Perm.eq_of_pairwise (le := (· < ·)) (fun a b _ _ h1 h2 => absurd h1 (not_lt.2 h2.le)) (ho.filter _) hn ?_
  rw [List.perm_ext_iff_of_nodup ((ho.imp fun h => ne_of_lt h).filter _) (hn.imp fun h => ne_of_lt h)]
  intro a
  simp only [List.mem_filter, decide_eq_true_eq, and_iff_right_iff_imp]
  exact hsub a

/-- the old edges split at the first and the last new edge -/
theorem split_edges {old new : List V} (ho : old.IsChain (· < ·)) (hn : new.IsChain (· < ·)) (hsub : ∀ x ∈ new, x ∈ old)
    (h2 : 2 ≤ new.length) : ∃ A M C last, old = A ++ M ++ last :: C ∧ M ≠ [] ∧ new.getLast? = some last ∧
      (∀ x ∈ A, x ∉ new) ∧ (∀ x ∈ C, x ∉ new) ∧ M.filter (· ∈ new) = new.dropLast ∧ (∀ x ∈ M.head?, x ∈ new) := by
  have hf := filter_new ho hn hsub
  rcases new with _ | ⟨n0, rest⟩
  · simp at h2
  have hrest : rest ≠ [] := by rintro rfl; simp at h2
  obtain ⟨mid, last, rfl⟩ : ∃ mid last, rest = mid ++ [last] :=
    ⟨rest.dropLast, rest.getLast hrest, (List.dropLast_append_getLast hrest).symm⟩
  rw [List.filter_eq_cons_iff] at hf
  obtain ⟨A, R, rfl, hA, hn0, hR⟩ := hf
  rw [List.filter_eq_append_iff] at hR
  obtain ⟨M, R', rfl, hM, hR'⟩ := hR
  rw [List.filter_eq_cons_iff] at hR'
  obtain ⟨B, C, rfl, hB, hlast, hC⟩ := hR'
  refine ⟨A, n0 :: (M ++ B), C, last, ?_, by simp, ?_, ?_, ?_, ?_, ?_⟩
  · simp
  · rw [show n0 :: (mid ++ [last]) = (n0 :: mid) ++ [last] from rfl, List.getLast?_concat]
  · intro x hx; simpa using hA x hx
  · intro x hx hxn
    have := (List.filter_eq_nil_iff.1 hC) x hx
    simp only [decide_eq_true_eq] at this
    exact this hxn
  · rw [List.filter_cons_of_pos (by simp), List.filter_append, hM,
      List.filter_eq_nil_iff.2 (fun x hx => hB x hx), List.append_nil,
      show n0 :: (mid ++ [last]) = (n0 :: mid) ++ [last] from rfl, List.dropLast_concat]
  · simp

omit [LinearOrder V] in
theorem countP_filter_length {P : V → Bool} (l : List V) : l.countP P = (l.filter P).length := List.countP_eq_length_filter

/-- shape of the segment ids: bins below the first new edge and above the last one are marked -1, the ids between are
sorted, not negative, and the last one is the number of new bins minus one -/
theorem segIds_form {old new : List V} (ho : old.IsChain (· < ·)) (hn : new.IsChain (· < ·)) (hsub : ∀ x ∈ new, x ∈ old)
    (h2 : 2 ≤ new.length) : ∃ a mid b, segIds old new = List.replicate a (-1) ++ mid ++ List.replicate b (-1) ∧
      mid ≠ [] ∧ (∀ i ∈ mid, 0 ≤ i ∧ i ≤ (new.length : Int) - 2) ∧ mid.IsChain (· ≤ ·) ∧
      mid.getLast? = some (((new.length - 1 : Nat) : Int) - 1) := by
  obtain ⟨A, M, C, last, rfl, hM, hlast, hA, hC, hMf, hMh⟩ := split_edges ho hn hsub h2
  have hAc : A.countP (· ∈ new) = 0 := List.countP_eq_zero.2 fun x hx => by simpa using hA x hx
  have hMc : M.countP (· ∈ new) = new.length - 1 := by
    rw [countP_filter_length, hMf, List.length_dropLast]
  have hAs := segScan_none new (-1) A hA
  have hlmem : last ∈ new := List.mem_of_getLast? hlast
  have hmid0 : ∀ i ∈ segScan new (-1) M, 0 ≤ i := by
    rcases M with _ | ⟨m, M⟩
    · exact absurd rfl hM
    · have hm : m ∈ new := hMh m (by simp)
      intro i hi
      simp only [segScan, if_pos hm, List.mem_cons] at hi
      rcases hi with rfl | hi
      · omega
      · exact segScan_ge new _ M i hi
  have hmid1 : ∀ i ∈ segScan new (-1) M, i ≤ (new.length : Int) - 2 := by
    intro i hi
    have := segScan_le new (-1) M i hi
    rw [hMc] at this
    omega
  have hmidl : (segScan new (-1) M).getLast? = some (((new.length - 1 : Nat) : Int) - 1) := by
    rw [segScan_last new (-1) M hM, hMc]
    congr 1
  have hmidne : segScan new (-1) M ≠ [] := by
    intro h
    have := congrArg List.length h
    rw [segScan_length] at this
    exact hM (List.length_eq_zero_iff.1 this)
  have hpre : segScan new (-1) (A ++ M) = List.replicate A.length (-1) ++ segScan new (-1) M := by
    rw [segScan_append, hAc, hAs]
    simp
  rcases List.eq_nil_or_concat C with rfl | ⟨C', lc, hCc⟩
  · refine ⟨A.length, segScan new (-1) M, 0, ?_, hmidne, fun i hi => ⟨hmid0 i hi, hmid1 i hi⟩, segScan_sorted _ _ _, hmidl⟩
    unfold segIds
    rw [List.dropLast_concat, if_pos (by rw [hlast, List.getLast?_concat]), hpre]
    simp
  · rw [List.concat_eq_append] at hCc
    subst hCc
    have hne : new.getLast? ≠ (A ++ M ++ last :: (C' ++ [lc])).getLast? := by
      rw [hlast, show A ++ M ++ last :: (C' ++ [lc]) = (A ++ M ++ last :: C') ++ [lc] by simp, List.getLast?_concat]
      intro h
      have : last = lc := by simpa using h
      exact hC lc (by simp) (this ▸ hlmem)
    have hdl : (A ++ M ++ last :: (C' ++ [lc])).dropLast = A ++ M ++ last :: C' := by
      rw [show A ++ M ++ last :: (C' ++ [lc]) = (A ++ M ++ last :: C') ++ [lc] by simp, List.dropLast_concat]
    have hAM : (A ++ M).countP (· ∈ new) = new.length - 1 := by rw [List.countP_append, hAc, hMc, Nat.zero_add]
    have htail : segScan new (-1 + ((A ++ M).countP (· ∈ new) : Nat)) (last :: C') =
        List.replicate (C'.length + 1) ((new.length : Int) - 1) := by
      rw [hAM]
      simp only [segScan, if_pos hlmem]
      rw [segScan_none new _ C' fun v hv => hC v (by simp [hv]), List.replicate_succ]
      have : (-1 : Int) + ((new.length - 1 : Nat) : Int) + 1 = (new.length : Int) - 1 := by omega
      rw [this]
    have hids : segScan new (-1) (A ++ M ++ last :: C') = List.replicate A.length (-1) ++ segScan new (-1) M ++
        List.replicate (C'.length + 1) ((new.length : Int) - 1) := by
      rw [segScan_append, htail, hpre]
    have hseg : (segScan new (-1) (A ++ M ++ last :: C')).getLast?.getD (-1) = (new.length : Int) - 1 := by
      rw [hids, List.getLast?_append, List.getLast?_replicate, if_neg (by omega)]
      rfl
    refine ⟨A.length, segScan new (-1) M, C'.length + 1, ?_, hmidne, fun i hi => ⟨hmid0 i hi, hmid1 i hi⟩,
      segScan_sorted _ _ _, hmidl⟩
    unfold segIds
    dsimp only
    rw [if_neg hne, hdl, hseg, hids, List.map_append, List.map_append, List.map_replicate, List.map_replicate,
      if_neg (by omega), if_pos rfl]
    congr 2
    refine (List.map_congr_left fun i hi => ?_).trans (List.map_id _)
    have := hmid1 i hi
    rw [if_neg (by omega)]; rfl

theorem foldl_max_le (l : List Int) (a b : Int) (ha : a ≤ b) (h : ∀ x ∈ l, x ≤ b) : l.foldl max a ≤ b := by
  induction l generalizing a with
  | nil => exact ha
  | cons x l ih => exact ih (max a x) (max_le ha (h x (by simp))) fun y hy => h y (List.mem_cons_of_mem _ hy)

theorem le_foldl_max (l : List Int) (a : Int) : a ≤ l.foldl max a ∧ ∀ x ∈ l, x ≤ l.foldl max a := by
  induction l generalizing a with
  | nil => simp
  | cons x l ih =>
    obtain ⟨h1, h2⟩ := ih (max a x)
    refine ⟨(le_max_left a x).trans h1, fun y hy => ?_⟩
    rcases List.mem_cons.1 hy with rfl | hy
    · exact (le_max_right a y).trans h1
    · exact h2 y hy

theorem numSegs_eq {old new : List V} (ho : old.IsChain (· < ·)) (hn : new.IsChain (· < ·)) (hsub : ∀ x ∈ new, x ∈ old)
    (h2 : 2 ≤ new.length) : numSegs (segIds old new) = new.length - 1 := by
  obtain ⟨a, mid, b, h, hne, hmid, -, hlast⟩ := segIds_form ho hn hsub h2
  unfold numSegs
  have h1 : (segIds old new).foldl max (-1) = (new.length : Int) - 2 := by
    apply le_antisymm
    · refine foldl_max_le _ _ _ (by omega) fun x hx => ?_
      rw [h, List.mem_append, List.mem_append] at hx
      rcases hx with (hx | hx) | hx
      · have := (List.mem_replicate.1 hx).2; omega
      · exact (hmid x hx).2
      · have := (List.mem_replicate.1 hx).2; omega
    · have := (le_foldl_max (segIds old new) (-1)).2 (((new.length - 1 : Nat) : Int) - 1) (by
        rw [h]; simp [List.mem_of_getLast? hlast])
      omega
  rw [h1]
  omega

/-- old bins that make up new bin `m` -/
def segGroup (ids : List Int) (m : Nat) : List Nat := (List.range ids.length).filter fun j => ids.getD j (-1) = (m : Int)

theorem segIds_length {old new : List V} : (segIds old new).length = old.length - 1 := by
  unfold segIds
  dsimp only
  split
  · rw [segScan_length, List.length_dropLast]
  · rw [List.length_map, segScan_length, List.length_dropLast]

/-- the old bins of a new bin are exactly those that lie inside it -/
theorem mem_segGroup {old new : List V} (ho : old.IsChain (· < ·)) (hn : new.IsChain (· < ·)) (hsub : ∀ x ∈ new, x ∈ old)
    (h2 : 2 ≤ new.length) (m j : Nat) : j ∈ segGroup (segIds old new) m ↔
      ∃ (o0 o1 n0 n1 : V), old[j]? = some o0 ∧ old[j + 1]? = some o1 ∧ new[m]? = some n0 ∧ new[m + 1]? = some n1 ∧
        n0 ≤ o0 ∧ o1 ≤ n1 := by
  have hf := filter_new ho hn hsub
  have hop : old.Pairwise (· < ·) := List.isChain_iff_pairwise.1 ho
  have hnp : new.Pairwise (· < ·) := List.isChain_iff_pairwise.1 hn
  unfold segGroup
  rw [List.mem_filter, List.mem_range, segIds_length, decide_eq_true_eq]
  by_cases hj : j < old.length - 1
  swap
  · constructor
    · exact fun h => absurd h.1 hj
    · rintro ⟨o0, o1, n0, n1, -, h, -⟩
      have := (List.getElem?_eq_some_iff.1 h).1
      omega
  have hj0 : j < old.length := by omega
  have hj1 : j + 1 < old.length := by omega
  -- the number of new edges up to old edge `j`
  have hraw := segScan_getElem? new (-1) old.dropLast j (by rw [List.length_dropLast]; exact hj)
  have htake : old.dropLast.take (j + 1) = old.take (j + 1) := by
    rw [List.dropLast_eq_take, List.take_take, Nat.min_eq_left (by omega)]
  rw [htake] at hraw
  generalize hcnt : (old.take (j + 1)).countP (· ∈ new) = cnt at hraw
  have hsplit : (old.take (j + 1)).filter (· ∈ new) ++ (old.drop (j + 1)).filter (· ∈ new) = new := by
    rw [← List.filter_append, List.take_append_drop, hf]
  have hl1 : ((old.take (j + 1)).filter (· ∈ new)).length = cnt := by rw [← countP_filter_length]; exact hcnt
  have hcl : cnt ≤ new.length := by
    have := congrArg List.length hsplit
    rw [List.length_append] at this
    omega
  have hlow : ∀ m, m < cnt → ∀ (hm : m < new.length), new[m] ≤ old[j] := by
    intro m hm hm'
    have hmem : new[m] ∈ (old.take (j + 1)).filter (· ∈ new) := by
      have : new[m]? = ((old.take (j + 1)).filter (· ∈ new))[m]? := by
        conv_lhs => rw [← hsplit]
        rw [List.getElem?_append_left (by omega)]
      rw [List.getElem?_eq_getElem hm'] at this
      exact List.mem_of_getElem? this.symm
    obtain ⟨k, hk, hke⟩ := List.getElem_of_mem (List.mem_filter.1 hmem).1
    rw [← hke, List.getElem_take]
    have hkj : k ≤ j := by rw [List.length_take] at hk; omega
    rcases Nat.lt_or_eq_of_le hkj with h | h
    · exact (List.pairwise_iff_getElem.1 hop k j _ hj0 h).le
    · subst h; exact le_refl _
  have hhigh : ∀ m, cnt ≤ m → ∀ (hm : m < new.length), old[j + 1] ≤ new[m] := by
    intro m hm hm'
    have hmem : new[m] ∈ (old.drop (j + 1)).filter (· ∈ new) := by
      have : new[m]? = ((old.drop (j + 1)).filter (· ∈ new))[m - cnt]? := by
        conv_lhs => rw [← hsplit]
        rw [List.getElem?_append_right (by omega), hl1]
      rw [List.getElem?_eq_getElem hm'] at this
      exact List.mem_of_getElem? this.symm
    obtain ⟨k, hk, hke⟩ := List.getElem_of_mem (List.mem_filter.1 hmem).1
    rw [← hke, List.getElem_drop]
    rcases Nat.eq_zero_or_pos k with h | h
    · subst h; exact le_refl _
    · exact (List.pairwise_iff_getElem.1 hop (j + 1) (j + 1 + k) hj1 (by rw [List.length_drop] at hk; omega) (by omega)).le
  have hstep : old[j] < old[j + 1] := List.pairwise_iff_getElem.1 hop j (j + 1) hj0 hj1 (by omega)
  -- the order condition is a condition on the count
  have hcond : (∃ (o0 o1 n0 n1 : V), old[j]? = some o0 ∧ old[j + 1]? = some o1 ∧ new[m]? = some n0 ∧
      new[m + 1]? = some n1 ∧ n0 ≤ o0 ∧ o1 ≤ n1) ↔ cnt = m + 1 ∧ m + 1 < new.length := by
    constructor
    · rintro ⟨o0, o1, n0, n1, e0, e1, e2, e3, h0, h1⟩
      obtain ⟨hm1, e3⟩ := List.getElem?_eq_some_iff.1 e3
      obtain ⟨hm0, e2⟩ := List.getElem?_eq_some_iff.1 e2
      rw [List.getElem?_eq_getElem hj0] at e0
      rw [List.getElem?_eq_getElem hj1] at e1
      cases e0; cases e1
      refine ⟨?_, hm1⟩
      by_contra hne
      rcases Nat.lt_or_gt_of_ne hne with h | h
      · have := hhigh m (by omega) hm0
        rw [e2] at this
        exact absurd (this.trans h0) (not_le.2 hstep)
      · have := hlow (m + 1) (by omega) hm1
        rw [e3] at this
        exact absurd (h1.trans this) (not_le.2 hstep)
    · rintro ⟨h, hm⟩
      exact ⟨old[j], old[j + 1], new[m], new[m + 1], List.getElem?_eq_getElem _, List.getElem?_eq_getElem _,
        List.getElem?_eq_getElem _, List.getElem?_eq_getElem _, hlow m (by omega) (by omega), hhigh (m + 1) (by omega) hm⟩
  rw [hcond]
  simp only [hj, true_and]
  -- the ids
  rw [List.getD_eq_getElem?_getD]
  unfold segIds
  dsimp only
  by_cases hlasteq : new.getLast? = old.getLast?
  · rw [if_pos hlasteq, hraw]
    simp only [Option.getD_some]
    have hcl' : cnt < new.length := by
      by_contra hge
      have hceq : cnt = new.length := by omega
      have hne : new ≠ [] := by rintro rfl; simp at h2
      have hm : new.length - 1 < new.length := by omega
      have := hlow (new.length - 1) (by omega) hm
      have hlv : new[new.length - 1] = old[old.length - 1]'(by omega) := by
        rw [List.getLast?_eq_getElem?, List.getLast?_eq_getElem?, List.getElem?_eq_getElem hm,
          List.getElem?_eq_getElem (by omega)] at hlasteq
        simpa using hlasteq
      rw [hlv] at this
      have hlt : old[j] < old[old.length - 1]'(by omega) := List.pairwise_iff_getElem.1 hop j (old.length - 1) hj0 (by omega) (by omega)
      exact absurd this (not_le.2 hlt)
    constructor
    · intro h; omega
    · intro h; omega
  · rw [if_neg hlasteq]
    rw [List.getElem?_map, hraw]
    simp only [Option.map_some, Option.getD_some]
    have hdlne : old.dropLast ≠ [] := by
      intro h
      have := congrArg List.length h
      rw [List.length_dropLast] at this
      simp at this; omega
    rw [segScan_last new (-1) old.dropLast hdlne]
    simp only [Option.getD_some]
    have hfull : old.dropLast.countP (· ∈ new) = new.length := by
      have hone : old ≠ [] := by rintro rfl; simp at hj0
      have hcat : old.dropLast ++ [old.getLast hone] = old := List.dropLast_append_getLast hone
      have : (old.dropLast ++ [old.getLast hone]).filter (· ∈ new) = new := by rw [hcat, hf]
      rw [List.filter_append] at this
      by_cases hin : old.getLast hone ∈ new
      · exfalso
        rw [List.filter_cons_of_pos (by simpa using hin), List.filter_nil] at this
        apply hlasteq
        rw [← this, List.getLast?_concat, List.getLast?_eq_some_getLast hone]
      · rw [List.filter_cons_of_neg (by simpa using hin), List.filter_nil, List.append_nil] at this
        rw [countP_filter_length, this]
    rw [hfull]
    split
    · constructor
      · intro h; omega
      · intro h; omega
    · constructor
      · intro h; omega
      · intro h; omega

end sorted

end Verif.Mappings
