import Verif.Model.Storage
import Mathlib.Data.List.Basic
import Mathlib.Tactic.Ring
import Mathlib.Tactic.Linarith

/-!
C13 (chunked storage round-trips), C64 (sparse slicing and segment sums).
-/

namespace Verif.Storage

variable {α : Type _}

/-! ### C13 -/

/-- Specification of "equal element by element": identical, or both zero (the stored zero may differ in sign). -/
def Spec.SameValue (isZero : α → Bool) (zero a b : α) : Prop := a = b ∨ (isZero a = true ∧ b = zero)

theorem length_assignSlice (dset aout : List α) (i : Nat) (h : i + aout.length ≤ dset.length) :
    (assignSlice dset i aout).length = dset.length := by
  simp [assignSlice]; omega

theorem getElem?_assignSlice (dset aout : List α) (i j : Nat) (h : i + aout.length ≤ dset.length) :
    (assignSlice dset i aout)[j]? = if i ≤ j ∧ j < i + aout.length then aout[j - i]? else dset[j]? := by
  unfold assignSlice
  have hl : (dset.take i).length = i := by rw [List.length_take]; omega
  split_ifs with hj
  · rw [List.append_assoc, List.getElem?_append_right (by omega), hl, List.getElem?_append_left (by omega)]
  · by_cases h1 : j < i
    · rw [List.append_assoc, List.getElem?_append_left (by omega), List.getElem?_take_of_lt h1]
    · rw [List.getElem?_append_right (by simp; omega), List.getElem?_drop]
      congr 1
      simp; omega

theorem writeLoop_spec (isZero : α → Bool) (zero : α) (arr : List α) (chunk : Nat) (offs : List Nat) (dset : List α)
    (hlen : dset.length = arr.length) (hinit : ∀ (j : Nat) a b, arr[j]? = some a → dset[j]? = some b →
      b = zero ∨ Spec.SameValue isZero zero a b) :
    (writeLoop isZero arr chunk offs dset).length = arr.length ∧
    ∀ (j : Nat) a b, arr[j]? = some a → (writeLoop isZero arr chunk offs dset)[j]? = some b →
      (∃ i ∈ offs, i ≤ j ∧ j < i + chunk) ∨ Spec.SameValue isZero zero a (dset[j]?.getD b) →
      Spec.SameValue isZero zero a b := by
  induction offs generalizing dset with
  | nil =>
    refine ⟨hlen, fun j a b ha hb h => ?_⟩
    simp only [writeLoop] at hb
    rcases h with ⟨i, hi, -⟩ | h
    · simp at hi
    · rw [hb] at h; exact h
  | cons i is ih =>
    simp only [writeLoop]
    set aout := (arr.drop i).take chunk with haout
    by_cases hz : (aout.any fun a => !isZero a) = true
    · rw [if_pos hz]
      have hle : i + aout.length ≤ dset.length := by
        have hne : aout ≠ [] := by rintro h; rw [h] at hz; simp at hz
        have : 0 < aout.length := List.length_pos_of_ne_nil hne
        rw [haout, List.length_take, List.length_drop] at this ⊢
        omega
      have hget : ∀ j, i ≤ j → j < i + aout.length → aout[j - i]? = arr[j]? := by
        intro j h1 h2
        rw [haout, List.getElem?_take_of_lt (by rw [haout, List.length_take] at h2; omega), List.getElem?_drop]
        congr 1; omega
      have hlen' : (assignSlice dset i aout).length = arr.length := by rw [length_assignSlice _ _ _ hle, hlen]
      obtain ⟨h1, h2⟩ := ih (assignSlice dset i aout) hlen' (by
        intro j a b ha hb
        rw [getElem?_assignSlice _ _ _ _ hle] at hb
        split_ifs at hb with hj
        · rw [hget j hj.1 hj.2, ha] at hb; cases hb; exact .inr (.inl rfl)
        · exact hinit j a b ha hb)
      refine ⟨h1, fun j a b ha hb h => h2 j a b ha hb ?_⟩
      rw [getElem?_assignSlice _ _ _ _ hle]
      by_cases hj : i ≤ j ∧ j < i + aout.length
      · rw [if_pos hj, hget j hj.1 hj.2, ha]; exact .inr (.inl rfl)
      · rw [if_neg hj]
        rcases h with ⟨k, hk, hk1, hk2⟩ | h
        · rcases List.mem_cons.1 hk with rfl | hk
          · exfalso
            apply hj
            refine ⟨hk1, ?_⟩
            obtain ⟨hja, -⟩ := List.getElem?_eq_some_iff.1 ha
            rw [haout, List.length_take, List.length_drop]; omega
          · exact .inl ⟨k, hk, hk1, hk2⟩
        · exact .inr h
    · rw [if_neg hz]
      obtain ⟨h1, h2⟩ := ih dset hlen hinit
      refine ⟨h1, fun j a b ha hb h => h2 j a b ha hb ?_⟩
      rcases h with ⟨k, hk, hk1, hk2⟩ | h
      · rcases List.mem_cons.1 hk with rfl | hk
        · right
          obtain ⟨hja, hja'⟩ := List.getElem?_eq_some_iff.1 ha
          have hmem : a ∈ aout := by
            rw [haout]
            have : aout[j - k]? = some a := by
              rw [haout, List.getElem?_take_of_lt (by omega), List.getElem?_drop]
              rw [show k + (j - k) = j by omega, ha]
            exact List.mem_of_getElem? this
          have hza : isZero a = true := by
            by_contra hc
            exact hz (List.any_eq_true.2 ⟨a, hmem, by simpa using hc⟩)
          have hjd : j < dset.length := by omega
          rcases hinit j a dset[j] ha (List.getElem?_eq_getElem hjd) with h0 | h0
          · rw [List.getElem?_eq_getElem hjd]; exact .inr ⟨hza, h0⟩
          · rw [List.getElem?_eq_getElem hjd]; exact h0
        · exact .inl ⟨k, hk, hk1, hk2⟩
      · exact .inr h

theorem offsets_cover (size chunk : Nat) (hc : 0 < chunk) (j : Nat) (hj : j < size) :
    ∃ i ∈ offsets size chunk, i ≤ j ∧ j < i + chunk := by
  refine ⟨j / chunk * chunk, ?_, Nat.div_mul_le_self j chunk, ?_⟩
  · rw [offsets, List.mem_map]
    refine ⟨j / chunk, ?_, rfl⟩
    rw [List.mem_range, Nat.lt_div_iff_mul_lt hc]
    have := Nat.div_mul_le_self j chunk
    rw [Nat.mul_comm] at this ⊢
    omega
  · have := Nat.lt_div_mul_add (a := j) hc
    exact this

theorem chunkSize_pos (size esize maxChunkBytes : Nat) : 0 < chunkSize size esize maxChunkBytes := by
  unfold chunkSize
  split_ifs with h
  · exact one_pos
  · rw [lt_min_iff]
    exact ⟨Nat.pos_of_ne_zero h, lt_of_lt_of_le one_pos (le_max_left _ _)⟩

/-- C13: for every array, element size and chunk limit, reading back what was written gives the same shape and the
same elements; elements that are zero come back as the fill value zero (relevant only for the sign of a
floating-point zero). -/
theorem c13_roundtrip (isZero : α → Bool) (zero : α) (esize maxChunkBytes : Nat) (a : Arr α) :
    (maketensor (writeFlatInChunks isZero zero esize maxChunkBytes a)).shape = a.shape ∧
    (maketensor (writeFlatInChunks isZero zero esize maxChunkBytes a)).data.length = a.data.length ∧
    ∀ (j : Nat) x y, a.data[j]? = some x →
      (maketensor (writeFlatInChunks isZero zero esize maxChunkBytes a)).data[j]? = some y →
      Spec.SameValue isZero zero x y := by
  have hspec := writeLoop_spec isZero zero a.data (chunkSize a.data.length esize maxChunkBytes)
    (offsets a.data.length (chunkSize a.data.length esize maxChunkBytes)) (List.replicate a.data.length zero)
    (by simp) (by
      intro j x y _ hy
      rw [List.getElem?_replicate] at hy
      split_ifs at hy
      cases hy; exact .inl rfl)
  have hdata : (maketensor (writeFlatInChunks isZero zero esize maxChunkBytes a)).data =
      writeLoop isZero a.data (chunkSize a.data.length esize maxChunkBytes)
        (offsets a.data.length (chunkSize a.data.length esize maxChunkBytes)) (List.replicate a.data.length zero) := by
    unfold maketensor writeFlatInChunks
    dsimp only
    split_ifs with h
    · exact (List.eq_nil_of_length_eq_zero h).symm
    · rfl
  refine ⟨?_, by rw [hdata, hspec.1], fun j x y hx hy => ?_⟩
  · unfold maketensor writeFlatInChunks; dsimp only; split_ifs <;> rfl
  · rw [hdata] at hy
    refine hspec.2 j x y hx hy (.inl ?_)
    obtain ⟨hj, -⟩ := List.getElem?_eq_some_iff.1 hx
    exact offsets_cover _ _ (chunkSize_pos _ _ _) j hj

/-- C13: with a type in which "equal to zero" means being the zero (integers, reals) the array is restored exactly. -/
theorem c13_roundtrip_exact (isZero : α → Bool) (zero : α) (hz : ∀ a, isZero a = true → a = zero)
    (esize maxChunkBytes : Nat) (a : Arr α) : maketensor (writeFlatInChunks isZero zero esize maxChunkBytes a) = a := by
  obtain ⟨h1, h2, h3⟩ := c13_roundtrip isZero zero esize maxChunkBytes a
  obtain ⟨s, d⟩ := a
  generalize maketensor (writeFlatInChunks isZero zero esize maxChunkBytes ⟨s, d⟩) = t at *
  obtain ⟨s', d'⟩ := t
  simp only at h1 h2 h3
  subst h1
  congr 1
  refine List.ext_getElem h2 fun j hj hj' => ?_
  rcases h3 j d[j] d'[j] (List.getElem?_eq_getElem hj') (List.getElem?_eq_getElem hj) with h | ⟨h, h'⟩
  · exact h.symm
  · rw [h', hz _ h]

theorem rows_flatten (k : Nat) (l : List (List α)) (h : ∀ r ∈ l, r.length = k) : rows k l.length l.flatten = l := by
  induction l with
  | nil => rfl
  | cons r l ih =>
    have hr := h r (by simp)
    simp only [List.length_cons, rows, List.flatten_cons]
    rw [List.take_left' hr, List.drop_left' hr, ih fun r hr => h r (List.mem_cons_of_mem _ hr)]

/-- C13: the sparse variant restores the index/value pairs and the shape; every index has one entry per axis. -/
theorem c13_sparse_roundtrip (isZero : α → Bool) (zero : α) (hz : ∀ a, isZero a = true → a = zero)
    (isize esize maxChunkBytes : Nat) (t : SparseT α) (h : ∀ r ∈ t.indices, r.length = t.denseShape.length) :
    makesparsetensor (writeSparse isZero zero isize esize maxChunkBytes t) = t := by
  unfold makesparsetensor writeSparse
  dsimp only
  rw [c13_roundtrip_exact isZero zero hz, c13_roundtrip_exact _ _ (by intro a h; simpa using h)]
  obtain ⟨i, v, s⟩ := t
  simp only [List.getD_cons_zero, List.getD_cons_succ, SparseT.mk.injEq, and_true]
  exact rows_flatten _ _ h

/-- five elements in chunks of two, the middle chunk empty -/
example : maketensor (writeFlatInChunks (fun n : Int => n == 0) 0 8 16 ⟨[5], [1, -2, 0, 0, 3]⟩) = ⟨[5], [1, -2, 0, 0, 3]⟩ :=
  c13_roundtrip_exact _ _ (by intro a h; simpa using h) _ _ _

example : offsets 5 2 = [0, 2, 4] := by decide

/-! ### C64 -/

theorem filter_zip_mask {β γ : Type _} (l : List β) (ix : List γ) (p : γ → Bool) (h : l.length = ix.length) :
    ((l.zip (ix.map p)).filter (·.2)).map (·.1) = ((l.zip ix).filter fun q => p q.2).map (·.1) := by
  induction l generalizing ix with
  | nil => simp
  | cons a l ih =>
    cases ix with
    | nil => simp at h
    | cons b ix =>
      simp only [List.map_cons, List.zip_cons_cons, List.filter_cons]
      have := ih ix (by simpa using h)
      by_cases hb : p b = true
      · simp [hb, this]
      · simp only [hb]; simpa using this

/-- C64: slicing keeps exactly the entries whose row index is below the bound, in order, with unchanged indices and
values. -/
theorem c64_slice (t : SparseT α) (stop : Nat) (h : t.values.length = t.indices.length) :
    (sparseSlice t stop).indices.zip (sparseSlice t stop).values =
      (t.indices.zip t.values).filter (fun p => decide (p.1.getD 0 0 < stop)) ∧
    (sparseSlice t stop).values.length = (sparseSlice t stop).indices.length ∧
    (sparseSlice t stop).denseShape = stop :: t.denseShape.tail := by
  obtain ⟨ind, vals, sh⟩ := t
  simp only at h
  refine ⟨?_, ?_, by simp [sparseSlice]⟩
  · simp only [sparseSlice]
    induction ind generalizing vals with
    | nil => simp
    | cons i ind ih =>
      cases vals with
      | nil => simp at h
      | cons v vals =>
        have := ih vals (by simpa using h)
        simp only [List.map_cons, List.zip_cons_cons, List.filter_cons]
        by_cases hb : i.getD 0 0 < stop
        · simp only [hb, decide_true, if_true, List.map_cons, List.zip_cons_cons]
          rw [this]
        · simp only [hb, decide_false]; simpa using this
  · simp only [sparseSlice]
    rw [filter_zip_mask _ _ _ h, filter_zip_mask _ _ _ rfl]
    induction ind generalizing vals with
    | nil => simp
    | cons i ind ih =>
      cases vals with
      | nil => simp at h
      | cons v vals =>
        have := ih vals (by simpa using h)
        simp only [List.length_map] at this
        simp only [List.zip_cons_cons, List.filter_cons, List.length_map]
        split_ifs <;> simp_all

example : sparseSlice (⟨[[0, 1], [2, 0], [1, 1]], [5, 6, 7], [3, 2]⟩ : SparseT Int) 2 = ⟨[[0, 1], [1, 1]], [5, 7], [2, 2]⟩ := by
  decide

theorem cumsum_false (acc k : Nat) (h : acc < k) (l : List Bool) :
    (((cumsumAux acc l).zip (List.range' k l.length)).filter fun p => p.1 == p.2 + 1).length = 0 := by
  induction l generalizing acc k with
  | nil => simp [cumsumAux]
  | cons b l ih =>
    simp only [cumsumAux, List.length_cons, List.range'_succ, List.zip_cons_cons, List.filter_cons]
    have h1 : ¬ (acc + (if b then 1 else 0) = k + 1) := by split <;> omega
    rw [if_neg (by simpa using h1)]
    exact ih _ _ (by split <;> omega)

theorem cumsum_lead (acc : Nat) (a : Nat) (rest : List Bool) (hr : rest.head? ≠ some true) :
    (((cumsumAux acc (List.replicate a true ++ rest)).zip (List.range' acc (a + rest.length))).filter
      fun p => p.1 == p.2 + 1).length = a := by
  induction a generalizing acc with
  | zero =>
    cases rest with
    | nil => simp [cumsumAux]
    | cons b l =>
      have hb : b = false := by cases b <;> simp_all
      subst hb
      simp only [List.replicate_zero, List.nil_append, cumsumAux, List.length_cons, Nat.zero_add, List.range'_succ,
        List.zip_cons_cons, List.filter_cons]
      rw [if_neg (by simp)]
      exact cumsum_false _ _ (by simp) l
  | succ a ih =>
    simp only [List.replicate_succ, List.cons_append, cumsumAux, if_true]
    rw [show a + 1 + rest.length = (a + rest.length) + 1 by omega, List.range'_succ, List.zip_cons_cons,
      List.filter_cons, if_pos (by simp), List.length_cons, ih]

theorem nLeading_eq (a : Nat) (rest : List Int) (hr : rest.head? ≠ some (-1)) :
    nLeading (List.replicate a (-1) ++ rest) = a := by
  unfold nLeading
  rw [List.range_eq_range', List.map_append, List.map_replicate, List.length_append, List.length_replicate]
  have := cumsum_lead 0 a (rest.map (· == -1)) (by
    cases rest with
    | nil => simp
    | cons b l => simp at hr ⊢; exact hr)
  rw [List.length_map] at this
  exact this

/-- C64: the segment sum adds exactly the entries with the same segment id and drops leading and trailing entries
with id -1 (flow bins outside the range); valid ids in between are sorted and non-negative. -/
theorem c64_segment_sum [AddMonoid α] (x : List α) (a b : Nat) (ids : List Int) (hne : ids ≠ [])
    (hpos : ∀ i ∈ ids, 0 ≤ i) (hsorted : ids.IsChain (· ≤ ·)) (n : Nat) (hn : ids.getLast? = some ((n : Int) - 1))
    (hx : x.length = a + ids.length + b) :
    ∃ r, segmentSumAlongAxis x (List.replicate a (-1) ++ ids ++ List.replicate b (-1)) n = .ok r ∧ r.length = n ∧
      ∀ k < n, r[k]? = some ((((x.zip (List.replicate a (-1) ++ ids ++ List.replicate b (-1))).filter
        fun p => p.2 == (k : Int)).map (·.1)).sum) := by
  have hnon : ∀ i ∈ ids, i ≠ -1 := fun i hi h => by have := hpos i hi; omega
  have h1 : nLeading (List.replicate a (-1) ++ ids ++ List.replicate b (-1)) = a := by
    rw [List.append_assoc]
    refine nLeading_eq _ _ ?_
    cases ids with
    | nil => exact absurd rfl hne
    | cons c l => simpa using hnon c (by simp)
  have h2 : nLeading (List.replicate a (-1) ++ ids ++ List.replicate b (-1)).reverse = b := by
    rw [List.reverse_append, List.reverse_append, List.reverse_replicate, List.reverse_replicate]
    refine nLeading_eq _ _ ?_
    rw [List.head?_append, List.head?_reverse, hn]
    simp only [Option.some_or, ne_eq, Option.some.injEq]
    intro h
    exact hnon _ (List.mem_of_getLast? (h ▸ hn)) rfl
  unfold segmentSumAlongAxis
  rw [h1, h2]
  dsimp only
  have hids : ((List.replicate a (-1 : Int) ++ ids ++ List.replicate b (-1)).take
      ((List.replicate a (-1 : Int) ++ ids ++ List.replicate b (-1)).length - b)).drop a = ids := by
    have : (List.replicate a (-1 : Int) ++ ids ++ List.replicate b (-1)).length - b =
        (List.replicate a (-1 : Int) ++ ids).length := by simp; omega
    rw [this, List.take_left, List.drop_left' (by simp)]
  rw [hids]
  unfold segmentSum
  rw [if_neg (by
    rintro (h | h)
    · obtain ⟨i, hi, hi'⟩ := List.any_eq_true.1 h
      have := hpos i hi; simp at hi'; omega
    · exact h hsorted), hn]
  have hn1 : ((n : Int) - 1).toNat + 1 = n := by
    have := hpos _ (List.mem_of_getLast? hn); omega
  simp only [hn1, List.length_map, List.length_range, if_true]
  refine ⟨_, rfl, by simp, fun k hk => ?_⟩
  rw [List.getElem?_map, List.getElem?_range hk]
  simp only [Option.map_some, Option.some.injEq]
  congr 1
  -- the flow entries have id -1 and never match
  have hxs : x = x.take a ++ ((x.take (x.length - b)).drop a ++ x.drop (x.length - b)) := by
    rw [← List.append_assoc]
    conv_lhs => rw [← List.take_append_drop (x.length - b) x]
    congr 1
    conv_lhs => rw [← List.take_append_drop a (x.take (x.length - b))]
    rw [List.take_take, min_eq_left (by omega)]
  conv_rhs => rw [hxs]
  rw [List.append_assoc, List.zip_append (by simp; omega), List.zip_append (by simp; omega)]
  have hrep : ∀ (m : Nat) (l : List α), (l.zip (List.replicate m (-1 : Int))).filter (fun p => p.2 == (k : Int)) = [] := by
    intro m l
    rw [List.filter_eq_nil_iff]
    rintro ⟨p, q⟩ hp
    have := (List.of_mem_zip hp).2
    rw [List.mem_replicate] at this
    simp only [this.2, beq_iff_eq]; omega
  rw [List.filter_append, List.filter_append, hrep, hrep, List.nil_append, List.append_nil]

example : segmentSumAlongAxis [(10 : Int), 1, 2, 3, 20] [-1, 0, 0, 1, -1] 2 = .ok [3, 3] := by decide

end Verif.Storage
