import Verif.Model.Regularization
import Verif.Lemmas.Grid
import Mathlib.Algebra.Order.BigOperators.Group.List
import Mathlib.Algebra.Order.Field.Basic
import Mathlib.Algebra.Order.Ring.Rat
import Mathlib.Algebra.BigOperators.Ring.List
import Mathlib.Tactic.Ring
import Mathlib.Tactic.Linarith

/-
C55: the curvature penalty (rabbit/regularization/svd.py).

Specification: the penalty is the sum of the squares of the discrete Laplacian, with the edge bins repeated, of the ratio
to the expected spectrum.  It is zero exactly for a constant ratio, in one, two and three dimensions.
-/

namespace Verif.Regularization

open Verif.Grid Verif.Workspace

variable {V : Type}

namespace Spec

/-- the ratio to the expected spectrum; one where nothing is expected -/
def ratio [Field V] [DecidableEq V] (nexp0 nexp : List Nat → V) (i : List Nat) : V :=
  if nexp0 i = 0 then 1 else nexp i / nexp0 i

/-- the neighbours of a bin along axis `a`; at the edge the bin itself -/
def down (i : List Nat) (a : Nat) : List Nat := i.set a (i.getD a 0 - 1)
def up (shape i : List Nat) (a : Nat) : List Nat := i.set a (min (i.getD a 0 + 1) (shape.getD a 0 - 1))

/-- the discrete Laplacian -/
def laplace [Ring V] (shape : List Nat) (x : List Nat → V) (i : List Nat) : V :=
  ((List.range shape.length).map fun a => (x (down i a) - x i) + (x (up shape i a) - x i)).sum

end Spec

/-! ## the convolution is the Laplacian -/

theorem source_zero {n a : Nat} (h : a < n) : source n (a + 0) = a - 1 := by
  unfold source; split <;> omega

theorem source_one {n a : Nat} (h : a < n) : source n (a + 1) = a := by
  unfold source; split <;> omega

theorem source_two {n a : Nat} : source n (a + 2) = min (a + 1) (n - 1) := by
  unfold source; split <;> omega

theorem curvature_eq [CommRing V] (t : Tensor V) (hd : t.shape.length = 1 ∨ t.shape.length = 2 ∨ t.shape.length = 3)
    (i : List Nat) (hi : i ∈ grid t.shape) : curvature t i = Spec.laplace t.shape t.val i := by
  obtain ⟨shape, x⟩ := t
  dsimp only at hd hi ⊢
  have h := mem_grid.1 hi
  rcases hd with hd | hd | hd
  · obtain ⟨n, rfl⟩ := List.length_eq_one_iff.1 hd
    cases h with
    | @cons a _ _ _ ha h =>
      cases h
      have g : grid [3] = [[0], [1], [2]] := by decide
      simp only [curvature, List.length_cons, List.length_nil, List.replicate, Nat.zero_add, g, List.map_cons, List.map_nil,
        List.zipWith_cons_cons, List.zipWith_nil_right, source_zero ha, source_one ha, source_two,
        kernel, List.getD_cons_zero, List.getD_cons_succ, List.sum_cons, List.sum_nil, Spec.laplace, List.range_succ,
        List.range_zero, List.nil_append, Spec.down, Spec.up, List.set_cons_zero]
      ring
  · obtain ⟨n, m, rfl⟩ := List.length_eq_two.1 hd
    cases h with
    | @cons a _ _ _ ha h =>
      cases h with
      | @cons b _ _ _ hb h =>
        cases h
        have g : grid [3, 3] = [[0, 0], [0, 1], [0, 2], [1, 0], [1, 1], [1, 2], [2, 0], [2, 1], [2, 2]] := by decide
        simp only [curvature, List.length_cons, List.length_nil, List.replicate, Nat.zero_add, Nat.reduceAdd, g, List.map_cons, List.map_nil,
          List.zipWith_cons_cons, List.zipWith_nil_right, source_zero ha, source_one ha, source_two,
          source_zero hb, source_one hb,
          kernel, List.getD_cons_zero, List.getD_cons_succ, List.sum_cons, List.sum_nil, Spec.laplace, List.range_succ,
          List.range_zero, List.nil_append, List.cons_append, Spec.down, Spec.up, List.set_cons_zero, List.set_cons_succ, zero_mul]
        ring
  · obtain ⟨n, m, p, rfl⟩ := List.length_eq_three.1 hd
    cases h with
    | @cons a _ _ _ ha h =>
      cases h with
      | @cons b _ _ _ hb h =>
        cases h with
        | @cons c _ _ _ hc h =>
          cases h
          have g : grid [3, 3, 3] = [[0, 0, 0], [0, 0, 1], [0, 0, 2], [0, 1, 0], [0, 1, 1], [0, 1, 2], [0, 2, 0], [0, 2, 1], [0, 2, 2],
            [1, 0, 0], [1, 0, 1], [1, 0, 2], [1, 1, 0], [1, 1, 1], [1, 1, 2], [1, 2, 0], [1, 2, 1], [1, 2, 2],
            [2, 0, 0], [2, 0, 1], [2, 0, 2], [2, 1, 0], [2, 1, 1], [2, 1, 2], [2, 2, 0], [2, 2, 1], [2, 2, 2]] := by decide
          simp only [curvature, List.length_cons, List.length_nil, List.replicate, Nat.zero_add, Nat.reduceAdd, g, List.map_cons, List.map_nil,
            List.zipWith_cons_cons, List.zipWith_nil_right, source_zero ha, source_one ha, source_two,
            source_zero hb, source_one hb, source_zero hc, source_one hc]
          simp only [List.getD_cons_zero, List.getD_cons_succ, List.sum_cons, List.sum_nil, Spec.laplace, List.range_succ,
            List.range_zero, List.nil_append, List.cons_append, Spec.down, Spec.up, List.set_cons_zero, List.set_cons_succ,
            List.map_cons, List.map_nil, List.length_cons, List.length_nil, Nat.zero_add, Nat.reduceAdd]
          simp [kernel, Dict.get?]
          ring

/-! ## harmonic functions on a grid with reflecting edges are constant -/

section harmonic

variable [Field V] [LinearOrder V] [IsStrictOrderedRing V]

theorem down_mem {shape i : List Nat} (h : i ∈ grid shape) (a : Nat) : Spec.down i a ∈ grid shape := by
  rw [mem_grid] at h ⊢
  unfold Spec.down
  induction h generalizing a with
  | nil => exact .nil
  | @cons x n l s hx hr ih =>
    cases a with
    | zero => exact .cons (by simp; omega) hr
    | succ a => simpa using List.Forall₂.cons hx (ih a)

theorem up_mem {shape i : List Nat} (h : i ∈ grid shape) (a : Nat) : Spec.up shape i a ∈ grid shape := by
  rw [mem_grid] at h ⊢
  unfold Spec.up
  induction h generalizing a with
  | nil => exact .nil
  | @cons x n l s hx hr ih =>
    cases a with
    | zero => exact .cons (by simp; omega) hr
    | succ a => simpa using List.Forall₂.cons hx (ih a)

theorem sum_down {i : List Nat} {a : Nat} (h : 0 < i.getD a 0) : (Spec.down i a).sum + 1 = i.sum := by
  unfold Spec.down
  induction i generalizing a with
  | nil => simp at h
  | cons x l ih =>
    cases a with
    | zero => simp at h ⊢; omega
    | succ a =>
      have h' : 0 < l.getD a 0 := by simpa using h
      have := ih h'
      simp only [List.getD_cons_succ, List.set_cons_succ, List.sum_cons] at this ⊢
      omega

theorem exists_pos {i : List Nat} (h : ¬ ∀ y ∈ i, y = 0) : ∃ a < i.length, 0 < i.getD a 0 := by
  push Not at h
  obtain ⟨y, hy, h0⟩ := h
  obtain ⟨a, ha, rfl⟩ := List.mem_iff_getElem.1 hy
  exact ⟨a, ha, by rw [List.getD_eq_getElem?_getD, List.getElem?_eq_getElem ha]; exact Nat.pos_of_ne_zero h0⟩

theorem up_down {shape i : List Nat} (hi : i ∈ grid shape) {a : Nat} (h : 0 < i.getD a 0) : Spec.up shape (Spec.down i a) a = i := by
  rw [mem_grid] at hi
  unfold Spec.up Spec.down
  induction hi generalizing a with
  | nil => simp at h
  | @cons x n l s hx hr ih =>
    cases a with
    | zero =>
      simp only [List.getD_cons_zero, List.set_cons_zero] at h ⊢
      congr 1
      omega
    | succ a =>
      have h' : 0 < l.getD a 0 := by simpa using h
      have := ih h'
      simp only [List.getD_cons_succ, List.set_cons_succ] at this ⊢
      rw [this]

omit [Field V] [IsStrictOrderedRing V] in
theorem exists_max (l : List (List Nat)) (hl : l ≠ []) (x : List Nat → V) : ∃ m ∈ l, ∀ i ∈ l, x i ≤ x m := by
  induction l with
  | nil => exact absurd rfl hl
  | cons a l ih =>
    by_cases h : l = []
    · subst h
      exact ⟨a, by simp, by simp⟩
    · obtain ⟨m, hm, hmax⟩ := ih h
      by_cases hc : x a ≤ x m
      · exact ⟨m, List.mem_cons_of_mem _ hm, by rintro i hi; rcases List.mem_cons.1 hi with rfl | hi; exacts [hc, hmax i hi]⟩
      · refine ⟨a, List.mem_cons_self, ?_⟩
        rintro i hi
        rcases List.mem_cons.1 hi with rfl | hi
        · exact le_refl _
        · exact (hmax i hi).trans (le_of_not_ge hc)

/-- a function with vanishing Laplacian is constant -/
theorem harmonic_const (shape : List Nat) (hs : 0 ∉ shape) (x : List Nat → V)
    (h : ∀ i ∈ grid shape, Spec.laplace shape x i = 0) : ∃ k, ∀ i ∈ grid shape, x i = k := by
  have hne : grid shape ≠ [] := by
    intro he
    have := length_grid shape
    rw [he] at this
    exact hs (List.prod_eq_zero_iff.1 this.symm)
  obtain ⟨m, hm, hmax⟩ := exists_max (grid shape) hne x
  have step : ∀ i ∈ grid shape, x i = x m → ∀ a < shape.length, x (Spec.down i a) = x m ∧ x (Spec.up shape i a) = x m := by
    intro i hi hxi a ha
    have h0 := h i hi
    unfold Spec.laplace at h0
    have hneg : ((List.range shape.length).map fun a => -((x (Spec.down i a) - x i) + (x (Spec.up shape i a) - x i))).sum = 0 := by
      have : ((List.range shape.length).map fun a => -((x (Spec.down i a) - x i) + (x (Spec.up shape i a) - x i))).sum =
          -((List.range shape.length).map fun a => (x (Spec.down i a) - x i) + (x (Spec.up shape i a) - x i)).sum := by
        generalize List.range shape.length = l
        induction l with
        | nil => simp
        | cons b l ih => rw [List.map_cons, List.map_cons, List.sum_cons, List.sum_cons, ih]; ring
      rw [this, h0, neg_zero]
    have hz := List.all_zero_of_le_zero_le_of_sum_eq_zero (l := (List.range shape.length).map fun a =>
      -((x (Spec.down i a) - x i) + (x (Spec.up shape i a) - x i))) (by
        intro y hy
        obtain ⟨b, -, rfl⟩ := List.mem_map.1 hy
        have h1 := hmax _ (down_mem hi b)
        have h2 := hmax _ (up_mem hi b)
        rw [hxi]
        linarith) hneg (List.mem_map_of_mem (f := fun a => -((x (Spec.down i a) - x i) + (x (Spec.up shape i a) - x i)))
          (List.mem_range.2 ha))
    have h1 := hmax _ (down_mem hi a)
    have h2 := hmax _ (up_mem hi a)
    rw [hxi] at hz
    constructor <;> linarith
  -- the corner
  have corner : ∀ n, ∀ i ∈ grid shape, i.sum = n → x i = x m → ∀ z ∈ grid shape, (∀ y ∈ z, y = 0) → x z = x m := by
    intro n
    induction n with
    | zero =>
      intro i hi hsum hxi z hz hz0
      have hi0 : ∀ y ∈ i, y = 0 := fun y hy => Nat.le_zero.1 (hsum ▸ List.single_le_sum (by simp) y hy)
      have : i = z := by
        have hl : i.length = z.length := (length_of_mem_grid hi).trans (length_of_mem_grid hz).symm
        exact (List.eq_replicate_of_mem hi0).trans (hl ▸ (List.eq_replicate_of_mem hz0).symm)
      rw [← this, hxi]
    | succ n ih =>
      intro i hi hsum hxi z hz hz0
      obtain ⟨a, ha, hpos⟩ := exists_pos (i := i) (by
        intro h0
        rw [List.sum_eq_zero h0] at hsum
        omega)
      have hsd := sum_down hpos
      exact ih _ (down_mem hi a) (by omega) (step i hi hxi a (by rw [← length_of_mem_grid hi]; exact ha)).1 z hz hz0
  refine ⟨x m, ?_⟩
  have all : ∀ n, ∀ i ∈ grid shape, i.sum = n → x i = x m := by
    intro n
    induction n with
    | zero =>
      intro i hi hsum
      exact corner _ m hm rfl rfl i hi fun y hy => Nat.le_zero.1 (hsum ▸ List.single_le_sum (by simp) y hy)
    | succ n ih =>
      intro i hi hsum
      obtain ⟨a, ha, hpos⟩ := exists_pos (i := i) (by
        intro h0
        rw [List.sum_eq_zero h0] at hsum
        omega)
      have hsd := sum_down hpos
      have := (step _ (down_mem hi a) (ih _ (down_mem hi a) (by omega)) a (by rw [← length_of_mem_grid hi]; exact ha)).2
      rwa [up_down hi hpos] at this
  exact fun i hi => all _ i hi rfl

omit [LinearOrder V] [IsStrictOrderedRing V] in
theorem laplace_const (shape : List Nat) (x : List Nat → V) (k : V) (h : ∀ i ∈ grid shape, x i = k) (i : List Nat)
    (hi : i ∈ grid shape) : Spec.laplace shape x i = 0 := by
  unfold Spec.laplace
  apply List.sum_eq_zero
  intro y hy
  obtain ⟨a, -, rfl⟩ := List.mem_map.1 hy
  rw [h _ (down_mem hi a), h _ (up_mem hi a), h i hi]
  ring

end harmonic

/-! ## the penalty -/

section main

variable [Field V] [LinearOrder V] [IsStrictOrderedRing V]

omit [Field V] [LinearOrder V] [IsStrictOrderedRing V] in
theorem svd_dims {m : Mp V} {s : Svd V} (h : svdInit m = .ok s) :
    s.mapping = m ∧ (s.shape.length = 1 ∨ s.shape.length = 2 ∨ s.shape.length = 3) := by
  unfold svdInit at h
  split at h
  · exact nomatch h
  · dsimp only at h
    split at h
    · rename_i hd
      cases h
      exact ⟨rfl, hd⟩
    · exact nomatch h

omit [IsStrictOrderedRing V] in
/-- C55.  The penalty is the sum of the squares of the Laplacian of the ratio to the expected spectrum. -/
theorem c55_value (m : Mp V) (s : Svd V) (hs : svdInit m = .ok s) (nexp0 obs : Tensor V) (p : V) (h : s.penalty nexp0 obs = .ok p) :
    ∃ nexp : Tensor V, m.flat obs = .ok nexp.flat ∧ nexp.shape = s.shape ∧ 0 ∉ s.shape ∧
      p = ((grid s.shape).map fun i => Spec.laplace s.shape (Spec.ratio nexp0.val nexp.val) i ^ 2).sum := by
  obtain ⟨hm, hd⟩ := svd_dims hs
  unfold Svd.penalty at h
  rw [hm] at h
  cases hf : m.flat obs with
  | error e => rw [hf] at h; exact nomatch h
  | ok l =>
    rw [hf] at h
    dsimp only at h
    cases ho : ofFlat s.shape l with
    | error e => rw [ho] at h; exact nomatch h
    | ok nexp =>
      rw [ho] at h
      dsimp only at h
      obtain ⟨h1, h2⟩ := flat_ofFlat ho
      split at h
      · exact nomatch h
      · rename_i h0
        cases h
        refine ⟨nexp, by rw [h2], h1, h0, ?_⟩
        congr 1
        apply List.map_congr_left
        intro i hi
        have hsh : (ratioTo nexp0 nexp).shape = s.shape := h1
        rw [curvature_eq _ (by rw [hsh]; exact hd) i (by rw [hsh]; exact hi), hsh, ← sq]
        congr 2
        funext j
        show (if nexp0.val j ≠ 0 then nexp.val j / nexp0.val j else 1) = _
        unfold Spec.ratio
        split_ifs <;> simp_all

/-- C55.  The penalty is never negative. -/
theorem c55_nonneg (m : Mp V) (s : Svd V) (hs : svdInit m = .ok s) (nexp0 obs : Tensor V) (p : V) (h : s.penalty nexp0 obs = .ok p) :
    0 ≤ p := by
  obtain ⟨nexp, -, -, -, rfl⟩ := c55_value m s hs nexp0 obs p h
  apply List.sum_nonneg
  intro y hy
  obtain ⟨i, -, rfl⟩ := List.mem_map.1 hy
  exact sq_nonneg _

/-- C55.  In one, two and three dimensions the penalty vanishes exactly when the ratio to the expected spectrum (one where
nothing is expected) is the same in all bins. -/
theorem c55_zero_iff (m : Mp V) (s : Svd V) (hs : svdInit m = .ok s) (nexp0 obs : Tensor V) (p : V) (h : s.penalty nexp0 obs = .ok p) :
    ∃ nexp : Tensor V, m.flat obs = .ok nexp.flat ∧ nexp.shape = s.shape ∧
      (p = 0 ↔ ∃ k, ∀ i ∈ grid s.shape, Spec.ratio nexp0.val nexp.val i = k) := by
  obtain ⟨nexp, h1, h2, h0, rfl⟩ := c55_value m s hs nexp0 obs p h
  refine ⟨nexp, h1, h2, ?_, ?_⟩
  · intro hz
    apply harmonic_const s.shape h0
    intro i hi
    have := List.all_zero_of_le_zero_le_of_sum_eq_zero (by
      intro y hy
      obtain ⟨i, -, rfl⟩ := List.mem_map.1 hy
      exact sq_nonneg _) hz (List.mem_map_of_mem (f := fun i => Spec.laplace s.shape (Spec.ratio nexp0.val nexp.val) i ^ 2) hi)
    exact pow_eq_zero_iff (two_ne_zero) |>.1 this
  · rintro ⟨k, hk⟩
    apply List.sum_eq_zero
    intro y hy
    obtain ⟨i, hi, rfl⟩ := List.mem_map.1 hy
    rw [laplace_const s.shape _ k hk i hi]
    ring

/-- C55.  The expected spectrum itself is not penalised, whatever bins are empty; a constant multiple of it is not
penalised when no bin is empty (see `c55_empty_bin_violated`). -/
theorem c55_multiple (m : Mp V) (s : Svd V) (hs : svdInit m = .ok s) (obs0 obs : Tensor V) (nexp0 : Tensor V)
    (he : s.expectations obs0 = .ok nexp0) (k : V) (hk : m.flat obs = .ok (nexp0.flat.map (k * ·)))
    (hz : k = 1 ∨ ∀ i ∈ grid s.shape, nexp0.val i ≠ 0) (h0 : 0 ∉ s.shape) : s.penalty nexp0 obs = .ok 0 := by
  obtain ⟨hm, -⟩ := svd_dims hs
  have hshape : nexp0.shape = s.shape ∧ nexp0.flat.length = s.shape.prod := by
    unfold Svd.expectations at he
    cases hf : s.mapping.flat obs0 with
    | error e => rw [hf] at he; exact nomatch he
    | ok l =>
      rw [hf] at he
      obtain ⟨h1, h2⟩ := flat_ofFlat he
      exact ⟨h1, by rw [flat_length, h1]⟩
  have hof : ofFlat s.shape (nexp0.flat.map (k * ·)) = .ok ⟨s.shape, fun i => (nexp0.flat.map (k * ·)).getD (ravel s.shape i) 0⟩ :=
    if_pos (by rw [List.length_map, hshape.2])
  have hp : ∃ p, s.penalty nexp0 obs = .ok p := by
    unfold Svd.penalty
    rw [hm, hk]
    dsimp only
    rw [hof]
    dsimp only
    rw [if_neg h0]
    exact ⟨_, rfl⟩
  obtain ⟨p, hp⟩ := hp
  obtain ⟨nexp, h1, h2, h3⟩ := c55_zero_iff m s hs nexp0 obs p hp
  rw [hp]
  congr 1
  rw [h3]
  have hval : ∀ i ∈ grid s.shape, nexp.val i = k * nexp0.val i := by
    intro i hi
    have hfl : nexp.flat = nexp0.flat.map (k * ·) := by
      rw [hk] at h1; exact (Except.ok.inj h1).symm
    have e1 := flat_getElem? nexp (i := i) (by rw [h2]; exact hi)
    have e2 := flat_getElem? nexp0 (i := i) (by rw [hshape.1]; exact hi)
    rw [h2, hfl, List.getElem?_map] at e1
    rw [hshape.1] at e2
    rw [e2] at e1
    exact (Option.some.inj e1).symm
  refine ⟨k, fun i hi => ?_⟩
  unfold Spec.ratio
  rw [hval i hi]
  rcases hz with rfl | hz
  · split_ifs with hzero
    · rfl
    · rw [one_mul, div_self hzero]
  · rw [if_neg (hz i hi), mul_div_assoc, div_self (hz i hi), mul_one]

/-- C55.  The part of the likelihood is non-negative, and zero exactly when every regulariser's penalty is zero. -/
theorem c55_term (w : V) (hw : 0 < w) (ps : List V) (hps : ∀ p ∈ ps, 0 ≤ p) (t : V) (h : penaltyTerm w ps = some t) :
    0 ≤ t ∧ (t = 0 ↔ ∀ p ∈ ps, p = 0) := by
  unfold penaltyTerm at h
  split at h
  · exact nomatch h
  · have h := Option.some.inj h
    subst h
    have hnn : ∀ y ∈ ps.map (· * w), 0 ≤ y := by
      intro y hy
      obtain ⟨p, hp, rfl⟩ := List.mem_map.1 hy
      exact mul_nonneg (hps p hp) hw.le
    refine ⟨List.sum_nonneg hnn, ?_, ?_⟩
    · intro hz p hp
      have := List.all_zero_of_le_zero_le_of_sum_eq_zero hnn hz (List.mem_map_of_mem (f := (· * w)) hp)
      exact (mul_eq_zero.1 this).resolve_right hw.ne'
    · intro hz
      apply List.sum_eq_zero
      intro y hy
      obtain ⟨p, hp, rfl⟩ := List.mem_map.1 hy
      rw [hz p hp, zero_mul]

omit [Field V] [LinearOrder V] [IsStrictOrderedRing V] in
/-- C55.  More than one channel, no axis, or more than three axes are refused. -/
theorem c55_refuse (m : Mp V) :
    svdInit m = .error .notImpl ↔ 1 < m.info.length ∨ (m.info.map fun kc => kc.2.axes.length).sum = 0 ∨
      3 < (m.info.map fun kc => kc.2.axes.length).sum := by
  have hl : (m.info.flatMap fun kc => kc.2.axes.map fun a => if kc.2.flow then a.extent else a.size).length =
      (m.info.map fun kc => kc.2.axes.length).sum := by
    rw [List.length_flatMap]
    simp
  unfold svdInit
  split
  · rename_i h; simp; left; omega
  · rename_i h
    dsimp only
    split
    · rename_i hd
      rw [hl] at hd
      constructor
      · intro h; exact nomatch h
      · intro h; omega
    · rename_i hd
      rw [hl] at hd
      constructor
      · intro _; omega
      · intro _; rfl

end main

namespace Ex55

/-- one channel with two axes of two bins; the mapping hands the bins on -/
def mp : Mp ℚ := ⟨"BaseMapping", [("ch", ⟨[⟨"x", 2, 2, [], []⟩, ⟨"y", 2, 2, [], []⟩], false, false⟩)], 0, true, false, false,
  fun o => .ok o.flat, fun _ => .error .notImpl⟩

def run (shape : List Nat) (l0 l : List ℚ) : Option ℚ :=
  let m : Mp ℚ := { mp with info := [("ch", ⟨shape.map fun n => ⟨"x", n, n, [], []⟩, false, false⟩)] }
  (svdInit m).toOption.bind fun s => (ofFlat [l0.length] l0).toOption.bind fun o0 => (s.expectations o0).toOption.bind fun e =>
    (ofFlat [l.length] l).toOption.bind fun o => (s.penalty e o).toOption

-- flat in the ratio
example : run [2, 2] [1, 2, 3, 4] [2, 4, 6, 8] = some 0 := by decide +kernel
-- ratios 1 1 2: curvatures 0 1 -1
example : run [3] [1, 2, 3] [1, 2, 6] = some 2 := by decide +kernel
example : run [2, 1, 2] [1, 2, 3, 4] [1, 2, 3, 8] = some 6 := by decide +kernel

end Ex55

/-- C55 does not hold for a multiple of a spectrum with an empty bin: the ratio of that bin is set to one, so twice the
expected spectrum is penalised. -/
theorem c55_empty_bin_violated :
    Ex55.run [3] [1, 0, 3] [1, 0, 3] = some 0 ∧ Ex55.run [3] [1, 0, 3] [2, 0, 6] = some 6 := by
  constructor <;> decide +kernel

end Verif.Regularization
