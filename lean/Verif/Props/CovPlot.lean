import Verif.Model.CovPlot
import Verif.Lemmas.Tensor
import Mathlib.Analysis.Real.Sqrt
import Mathlib.Tactic.Ring
import Mathlib.Tactic.FieldSimp
import Mathlib.Tactic.Linarith
import Mathlib.Algebra.Field.Rat

/-
C86: plots of covariance and correlation matrices (bin/rabbit_plot_cov.py).
-/

namespace Verif.CovPlot

open Verif.Grid

variable {V : Type} [Field V]

/-! ## specification -/

namespace Spec

/-- the entries of a multi-index on the axes with property `P` -/
def part (P : String → Bool) (axes : List (String × Nat)) (i : List Nat) : List Nat := ((axes.zip i).filter fun x => P x.1.1).map (·.2)

/-- the sizes of the axes with property `P` -/
def sizes (P : String → Bool) (axes : List (String × Nat)) : List Nat := (axes.filter fun x => P x.1).map (·.2)

/-- the number to be drawn for bins `i` and `j`: the covariance `f` or the correlation -/
def draw (sqrt : V → V) (corr : Bool) (f : List Nat → List Nat → V) (i j : List Nat) : V :=
  if corr then f i j / (sqrt (f i i) * sqrt (f j j)) else f i j

/-- `t` shows the bins of `axes` in the order of their positions in the array, at the bins `bins` of the axes in `sel` -/
def Shows (sqrt : V → V) (corr : Bool) (axes : List (String × Nat)) (sel : List String) (bins : List Nat) (f : List Nat → List Nat → V)
    (t : Tensor V) : Prop :=
  let os := sizes (fun a => decide (a ∉ sel)) axes
  t.shape = [os.prod, os.prod] ∧ ∀ i ∈ grid (axes.map (·.2)), ∀ j ∈ grid (axes.map (·.2)),
    part (fun a => decide (a ∈ sel)) axes i = bins → part (fun a => decide (a ∈ sel)) axes j = bins →
    t.val [ravel os (part (fun a => decide (a ∉ sel)) axes i), ravel os (part (fun a => decide (a ∉ sel)) axes j)] = draw sqrt corr f i j

/-- what is to be shown of a channel with the covariance `f`: all bins, and the bins of the other axes in every bin of the selection axes -/
def channel (sqrt : V → V) (a : Args) (axes : List (String × Nat)) (f : List Nat → List Nat → V) : List (Tensor V → Prop) :=
  Shows sqrt a.correlation axes [] [] f ::
    (if sizes (fun x => decide (x ∈ a.selectionAxes)) axes = [] then []
     else (grid (sizes (fun x => decide (x ∈ a.selectionAxes)) axes)).map fun bins => Shows sqrt a.correlation axes a.selectionAxes bins f)

/-- what is to be shown of the channels of a mapping with the covariance `C` of all bins, from position `off` on -/
def channels (sqrt : V → V) (a : Args) (C : Nat → Nat → V) : Nat → Dict String (Ch V) → List (Tensor V → Prop)
  | _, [] => []
  | off, (_, ch) :: rest => channel sqrt a ch.axes (fun i j => C (off + ravel (ch.axes.map (·.2)) i) (off + ravel (ch.axes.map (·.2)) j)) ++
      channels sqrt a C (off + (ch.axes.map (·.2)).prod) rest

end Spec

/-! ## lemmas -/

theorem ok_bind {α β : Type} (x : α) (f : α → Res β) : (Except.ok x : Res α).bind f = f x := rfl

theorem ravel_append (s r i j : List Nat) (h : i.length = s.length) : ravel (s ++ r) (i ++ j) = ravel s i * r.prod + ravel r j := by
  induction s generalizing i with
  | nil =>
    have : i = [] := by simpa using h
    subst this
    simp [ravel]
  | cons a s ih =>
    rcases i with _ | ⟨b, i⟩
    · simp at h
    · simp only [List.cons_append, ravel]
      rw [ih i (by simpa using h), List.prod_append]
      ring

theorem reshape_val (t : Tensor V) (s : List Nat) (h : t.shape.prod = s.prod) :
    ∃ u, t.reshape s = .ok u ∧ u.shape = s ∧ ∀ i ∈ grid t.shape, ∀ k, ravel s k = ravel t.shape i → u.val k = t.val i := by
  refine ⟨_, if_pos (by rw [flat_length, h]), rfl, fun i hi k hk => ?_⟩
  show t.flat.getD (ravel s k) 0 = _
  rw [hk, List.getD_eq_getElem?_getD, flat_getElem? t hi]
  rfl

theorem mem_grid_two {n m i j : Nat} (hi : i < n) (hj : j < m) : [i, j] ∈ grid [n, m] := by
  rw [mem_grid]
  exact .cons hi (.cons hj .nil)

theorem ravel_two (n m i j : Nat) : ravel [n, m] [i, j] = i * m + j := by simp [ravel]

/-- the matrix of contents with the axes `s` twice -/
theorem flatten_spec (t : Tensor V) (s : List Nat) (hs : s ≠ []) (ht : t.shape = s ++ s) :
    ∃ u, flatten t = .ok u ∧ u.shape = [s.prod, s.prod] ∧ ∀ i ∈ grid s, ∀ j ∈ grid s, u.val [ravel s i, ravel s j] = t.val (i ++ j) := by
  unfold flatten
  by_cases hl : 2 < t.shape.length
  · have hh : t.shape.take (t.shape.length / 2) = s := by
      rw [ht, List.length_append, ← two_mul, Nat.mul_div_cancel_left _ (by norm_num), List.take_left']
      rfl
    rw [if_pos hl, hh]
    obtain ⟨u, h1, h2, h3⟩ := reshape_val t [s.prod, s.prod] (by rw [ht]; simp)
    refine ⟨u, h1, h2, fun i hi j hj => h3 (i ++ j) ?_ _ ?_⟩
    · rw [ht]
      exact (mem_grid_append (length_of_mem_grid hi)).2 ⟨hi, hj⟩
    · rw [ht, ravel_append _ _ _ _ (length_of_mem_grid hi), ravel_two]
  · rw [if_neg hl]
    rcases s with _ | ⟨n, _ | ⟨m, s⟩⟩
    · exact absurd rfl hs
    · refine ⟨t, rfl, by rw [ht]; simp, fun i hi j hj => ?_⟩
      rw [mem_grid] at hi hj
      cases hi with
      | cons _ hi => cases hi; cases hj with
        | cons _ hj => cases hj; simp [ravel]
    · rw [ht] at hl
      simp at hl

theorem flatten_two (t : Tensor V) (n m : Nat) (ht : t.shape = [n, m]) : flatten t = .ok t := by
  unfold flatten
  rw [if_neg (by rw [ht]; simp)]

/-- the positions read at fixed bins -/
def posL (sel : List String) : List (String × Nat) → List Nat → List (Bool × List Nat)
  | [], _ => []
  | (a, n) :: as, bs => if a ∈ sel then (false, [bs.headD 0]) :: posL sel as bs.tail else (true, List.range n) :: posL sel as bs

theorem grid_cons_iff {n : Nat} {ns i : List Nat} : i ∈ grid (n :: ns) ↔ ∃ k r, i = k :: r ∧ k < n ∧ r ∈ grid ns := by
  rw [mem_grid]
  constructor
  · intro h
    cases h with
    | cons h1 h2 => exact ⟨_, _, rfl, h1, mem_grid.2 h2⟩
  · rintro ⟨k, r, rfl, h1, h2⟩
    exact .cons h1 (mem_grid.1 h2)

theorem sizes_cons (P : String → Bool) (a : String) (n : Nat) (as : List (String × Nat)) :
    Spec.sizes P ((a, n) :: as) = if P a then n :: Spec.sizes P as else Spec.sizes P as := by
  unfold Spec.sizes
  rw [List.filter_cons]
  cases P a <;> simp

theorem part_cons (P : String → Bool) (a : String) (n k : Nat) (as : List (String × Nat)) (i : List Nat) :
    Spec.part P ((a, n) :: as) (k :: i) = if P a then k :: Spec.part P as i else Spec.part P as i := by
  unfold Spec.part
  rw [List.zip_cons_cons, List.filter_cons]
  cases P a <;> simp

theorem allPositions_picks (sel : List String) (axes : List (String × Nat)) (bins : List Nat)
    (hb : bins ∈ grid (Spec.sizes (fun a => decide (a ∈ sel)) axes)) (s : List Nat) (p : List Pick) (q : List (Bool × List Nat))
    (hq : allPositions s p = .ok q) : allPositions (axes.map (·.2) ++ s) (picks sel axes bins ++ p) = .ok (posL sel axes bins ++ q) := by
  induction axes generalizing bins with
  | nil => exact hq
  | cons x axes ih =>
    obtain ⟨a, n⟩ := x
    rw [sizes_cons] at hb
    unfold picks posL
    by_cases ha : a ∈ sel
    · rw [if_pos (by simpa using ha)] at hb
      obtain ⟨k, r, rfl, hk, hr⟩ := grid_cons_iff.1 hb
      rw [if_pos ha, if_pos ha]
      have h1 : Pick.positions n (.int ((k :: r).headD 0 : Nat)) = .ok (false, [k]) := by
        show (if (0 : Int) ≤ (k : Int) ∧ (k : Int) < n then _ else _) = _
        rw [if_pos ⟨by simp, by exact_mod_cast hk⟩]
        simp
      simp only [List.map_cons, List.cons_append, allPositions, h1, List.tail_cons, ih r hr]
      rfl
    · rw [if_neg (by simpa using ha)] at hb
      rw [if_neg ha, if_neg ha]
      have h1 : Pick.positions n (.slc none none none) = .ok (true, List.range n) := by
        unfold Pick.positions
        simp
      simp only [List.map_cons, List.cons_append, allPositions, h1, ih bins hb]

theorem readShape_posL (sel : List String) (axes : List (String × Nat)) (bins : List Nat) (s : List Nat) (q : List (Bool × List Nat)) :
    readShape (posL sel axes bins ++ q) (axes.map (·.2) ++ s) = Spec.sizes (fun a => decide (a ∉ sel)) axes ++ readShape q s := by
  induction axes generalizing bins with
  | nil => rfl
  | cons x axes ih =>
    obtain ⟨a, n⟩ := x
    rw [sizes_cons]
    unfold posL
    by_cases ha : a ∈ sel
    · rw [if_pos ha, if_neg (by simpa using ha)]
      simp only [List.map_cons, List.cons_append, readShape, List.tail_cons]
      exact ih _
    · rw [if_neg ha, if_pos (by simpa using ha)]
      simp only [List.map_cons, List.cons_append, readShape, List.tail_cons, List.length_range]
      rw [ih]

theorem readIdx_posL (sel : List String) (axes : List (String × Nat)) (i : List Nat) (hi : i ∈ grid (axes.map (·.2)))
    (o : List Nat) (q : List (Bool × List Nat)) :
    readIdx (posL sel axes (Spec.part (fun a => decide (a ∈ sel)) axes i) ++ q) (Spec.part (fun a => decide (a ∉ sel)) axes i ++ o) =
      i ++ readIdx q o := by
  induction axes generalizing i with
  | nil =>
    have : i = [] := by
      have := length_of_mem_grid hi
      simpa using this
    subst this
    rfl
  | cons x axes ih =>
    obtain ⟨a, n⟩ := x
    rw [List.map_cons] at hi
    obtain ⟨k, r, rfl, hk, hr⟩ := grid_cons_iff.1 hi
    rw [part_cons, part_cons]
    unfold posL
    by_cases ha : a ∈ sel
    · rw [if_pos ha, if_pos (by simpa using ha), if_neg (by simpa using ha)]
      simp only [List.cons_append, readIdx, List.headD_cons, List.tail_cons]
      rw [ih r hr]
      simp
    · rw [if_neg ha, if_neg (by simpa using ha), if_pos (by simpa using ha)]
      simp only [List.cons_append, readIdx]
      rw [ih r hr]
      simp only [List.getD_eq_getElem?_getD]
      rw [List.getElem?_range hk]
      rfl

theorem part_mem (P : String → Bool) (axes : List (String × Nat)) (i : List Nat) (hi : i ∈ grid (axes.map (·.2))) :
    Spec.part P axes i ∈ grid (Spec.sizes P axes) := by
  induction axes generalizing i with
  | nil => simp [Spec.part, Spec.sizes, grid]
  | cons x axes ih =>
    obtain ⟨a, n⟩ := x
    rw [List.map_cons] at hi
    obtain ⟨k, r, rfl, hk, hr⟩ := grid_cons_iff.1 hi
    rw [part_cons, sizes_cons]
    cases P a
    · exact ih r hr
    · exact grid_cons_iff.2 ⟨k, _, rfl, hk, ih r hr⟩

/-- contents at fixed bins of the selection axes -/
theorem binCov_spec (sel : List String) (axes : List (String × Nat)) (t u : Tensor V) (hu : flatten t = .ok u) (bins : List Nat)
    (hb : bins ∈ grid (Spec.sizes (fun a => decide (a ∈ sel)) axes)) (hus : u.shape = [(axes.map (·.2)).prod, (axes.map (·.2)).prod]) :
    let os := Spec.sizes (fun a => decide (a ∉ sel)) axes
    ∃ v, binCov sel axes t bins = .ok v ∧ v.shape = os ++ os ∧ ∀ i ∈ grid (axes.map (·.2)), ∀ j ∈ grid (axes.map (·.2)),
      Spec.part (fun a => decide (a ∈ sel)) axes i = bins → Spec.part (fun a => decide (a ∈ sel)) axes j = bins →
      v.val (Spec.part (fun a => decide (a ∉ sel)) axes i ++ Spec.part (fun a => decide (a ∉ sel)) axes j) =
        u.val [ravel (axes.map (·.2)) i, ravel (axes.map (·.2)) j] := by
  intro os
  set s := axes.map (·.2) with hs
  obtain ⟨u1, h1, h2, h3⟩ := reshape_val u (s.prod :: s) (by rw [hus]; simp)
  obtain ⟨u2, g1, g2, g3⟩ := reshape_val u1 (s ++ s) (by rw [h2]; simp)
  have hp := allPositions_picks sel axes bins hb s (picks sel axes bins) (posL sel axes bins) (by
    have := allPositions_picks sel axes bins hb [] [] [] rfl
    simpa only [List.append_nil] using this)
  have hi : u2.index (picks sel axes bins ++ picks sel axes bins) =
      .ok ⟨readShape (posL sel axes bins ++ posL sel axes bins) u2.shape, fun i => u2.val (readIdx (posL sel axes bins ++ posL sel axes bins) i)⟩ := by
    unfold Tensor.index
    rw [g2, hp]
  refine ⟨⟨readShape (posL sel axes bins ++ posL sel axes bins) u2.shape, fun i => u2.val (readIdx (posL sel axes bins ++ posL sel axes bins) i)⟩,
    ?_, ?_, ?_⟩
  · unfold binCov
    rw [hu]
    show (u.reshape (u.shape.headD 0 :: axes.map (·.2))).bind _ = _
    rw [hus, ← hs]
    show (u.reshape (s.prod :: s)).bind _ = _
    rw [h1]
    show (u1.reshape (s ++ s)).bind _ = _
    rw [g1]
    exact hi
  · show readShape _ u2.shape = _
    rw [g2, hs, readShape_posL]
    have := readShape_posL sel axes bins [] []
    simp only [List.append_nil] at this
    rw [this]
    show _ ++ (_ ++ []) = _
    rw [List.append_nil]
  · intro i hi j hj hib hjb
    show u2.val (readIdx _ _) = _
    have e : readIdx (posL sel axes bins ++ posL sel axes bins)
        (Spec.part (fun a => decide (a ∉ sel)) axes i ++ Spec.part (fun a => decide (a ∉ sel)) axes j) = i ++ j := by
      have e1 := readIdx_posL sel axes i hi (Spec.part (fun a => decide (a ∉ sel)) axes j) (posL sel axes bins)
      have e2 := readIdx_posL sel axes j hj [] []
      rw [hib] at e1
      rw [hjb] at e2
      simp only [List.append_nil] at e2
      rw [e1, e2]
      show _ ++ (_ ++ []) = _
      rw [List.append_nil]
    rw [e]
    have l1 := ravel_lt hi
    have l2 := ravel_lt hj
    rw [g3 (ravel s i :: j) (by rw [h2]; exact grid_cons_iff.2 ⟨_, _, rfl, l1, hj⟩) (i ++ j) (by
      rw [ravel_append _ _ _ _ (length_of_mem_grid hi), h2]
      rfl)]
    rw [h3 [ravel s i, ravel s j] (by rw [hus]; exact mem_grid_two l1 l2) (ravel s i :: j) (by
      rw [hus, ravel_two]
      rfl)]

theorem sizes_all (axes : List (String × Nat)) : Spec.sizes (fun a => decide (a ∉ ([] : List String))) axes = axes.map (·.2) := by
  unfold Spec.sizes
  rw [List.filter_eq_self.2 (by simp)]

theorem part_all (axes : List (String × Nat)) (i : List Nat) (hi : i ∈ grid (axes.map (·.2))) :
    Spec.part (fun a => decide (a ∉ ([] : List String))) axes i = i := by
  unfold Spec.part
  rw [List.filter_eq_self.2 (by simp)]
  have hl : i.length ≤ axes.length := by
    have := length_of_mem_grid hi
    simp at this
    omega
  exact List.map_snd_zip hl

/-- a drawn matrix -/
theorem plotMatrix_spec (sqrt : V → V) (a : Args) (t u : Tensor V) (hu : flatten t = .ok u) :
    ∃ m, plotMatrix sqrt a t = .ok m ∧ m.shape = u.shape ∧
      ∀ i j, m.val [i, j] = if a.correlation then u.val [i, j] / (sqrt (u.val [i, i]) * sqrt (u.val [j, j])) else u.val [i, j] := by
  unfold plotMatrix
  rw [hu]
  refine ⟨_, rfl, ?_, fun i j => ?_⟩
  · cases a.correlation <;> rfl
  · cases a.correlation <;> rfl

theorem shows_all (sqrt : V → V) (a : Args) (axes : List (String × Nat)) (f : List Nat → List Nat → V) (t u : Tensor V) (hu : flatten t = .ok u)
    (hs : u.shape = [(axes.map (·.2)).prod, (axes.map (·.2)).prod])
    (hf : ∀ i ∈ grid (axes.map (·.2)), ∀ j ∈ grid (axes.map (·.2)), u.val [ravel (axes.map (·.2)) i, ravel (axes.map (·.2)) j] = f i j) :
    ∃ m, plotMatrix sqrt a t = .ok m ∧ Spec.Shows sqrt a.correlation axes [] [] f m := by
  obtain ⟨m, h1, h2, h3⟩ := plotMatrix_spec sqrt a t u hu
  refine ⟨m, h1, ?_, fun i hi j hj _ _ => ?_⟩
  · rw [h2, hs, sizes_all]
  · rw [sizes_all, part_all axes i hi, part_all axes j hj, h3, hf i hi j hj, hf i hi i hi, hf j hj j hj]
    rfl

theorem shows_bins (sqrt : V → V) (a : Args) (axes : List (String × Nat)) (f : List Nat → List Nat → V) (t u : Tensor V) (hu : flatten t = .ok u)
    (hs : u.shape = [(axes.map (·.2)).prod, (axes.map (·.2)).prod])
    (hf : ∀ i ∈ grid (axes.map (·.2)), ∀ j ∈ grid (axes.map (·.2)), u.val [ravel (axes.map (·.2)) i, ravel (axes.map (·.2)) j] = f i j)
    (bins : List Nat) (hb : bins ∈ grid (Spec.sizes (fun x => decide (x ∈ a.selectionAxes)) axes))
    (ho : Spec.sizes (fun x => decide (x ∉ a.selectionAxes)) axes ≠ []) :
    ∃ v m, binCov a.selectionAxes axes t bins = .ok v ∧ plotMatrix sqrt a v = .ok m ∧
      Spec.Shows sqrt a.correlation axes a.selectionAxes bins f m := by
  obtain ⟨v, h1, h2, h3⟩ := binCov_spec a.selectionAxes axes t u hu bins hb hs
  obtain ⟨w, g1, g2, g3⟩ := flatten_spec v _ ho h2
  obtain ⟨m, k1, k2, k3⟩ := plotMatrix_spec sqrt a v w g1
  refine ⟨v, m, h1, k1, by rw [k2, g2], fun i hi j hj hib hjb => ?_⟩
  have pi := part_mem (fun x => decide (x ∉ a.selectionAxes)) axes i hi
  have pj := part_mem (fun x => decide (x ∉ a.selectionAxes)) axes j hj
  rw [k3, g3 _ pi _ pj, g3 _ pi _ pi, g3 _ pj _ pj, h3 i hi j hj hib hjb, h3 i hi i hi hib hib, h3 j hj j hj hjb hjb, hf i hi j hj, hf i hi i hi,
    hf j hj j hj]
  rfl

theorem mapM_forall₂ {α β γ : Type} (g : α → Res β) (L : List α) (Q : α → γ) (R : γ → β → Prop) (h : ∀ x ∈ L, ∃ y, g x = .ok y ∧ R (Q x) y) :
    ∃ ys, L.mapM g = .ok ys ∧ List.Forall₂ R (L.map Q) ys := by
  induction L with
  | nil => exact ⟨[], rfl, .nil⟩
  | cons x L ih =>
    obtain ⟨y, h1, h2⟩ := h x (by simp)
    obtain ⟨ys, h3, h4⟩ := ih fun z hz => h z (List.mem_cons_of_mem _ hz)
    refine ⟨y :: ys, ?_, .cons h2 h4⟩
    rw [List.mapM_cons, h1, h3]
    rfl

theorem sizes_nil_iff (P : String → Bool) (axes : List (String × Nat)) : Spec.sizes P axes = [] ↔ (axes.filter fun x => P x.1) = [] := by
  unfold Spec.sizes
  rw [List.map_eq_nil_iff]

theorem binPlots_spec (sqrt : V → V) (text : String → Nat → String) (a : Args) (channel suffix : String) (axes : List (String × Nat))
    (f : List Nat → List Nat → V) (t u : Tensor V) (hu : flatten t = .ok u)
    (hs : u.shape = [(axes.map (·.2)).prod, (axes.map (·.2)).prod])
    (hf : ∀ i ∈ grid (axes.map (·.2)), ∀ j ∈ grid (axes.map (·.2)), u.val [ravel (axes.map (·.2)) i, ravel (axes.map (·.2)) j] = f i j)
    (ho : ∃ x ∈ axes, x.1 ∉ a.selectionAxes) :
    ∃ ps, binPlots sqrt text a channel axes t suffix = .ok ps ∧
      List.Forall₂ (fun (P : Tensor V → Prop) x => P x.2) (Spec.channel sqrt a axes f).tail ps.1 := by
  have ho' : (axes.filter fun x => decide (x.1 ∉ a.selectionAxes)) ≠ [] := by
    obtain ⟨x, h1, h2⟩ := ho
    exact List.ne_nil_of_mem (List.mem_filter.2 ⟨h1, by simpa using h2⟩)
  unfold binPlots Spec.channel
  rw [List.tail_cons]
  by_cases hsel : (axes.filter fun x => decide (x.1 ∈ a.selectionAxes)) = []
  · rw [if_pos ((sizes_nil_iff _ _).2 hsel)]
    refine ⟨([], suffix), if_pos hsel, .nil⟩
  · rw [if_neg (fun h => hsel ((sizes_nil_iff _ _).1 h))]
    obtain ⟨ps, h1, h2⟩ := mapM_forall₂ (binPlot sqrt text a channel axes t)
      (grid (Spec.sizes (fun x => decide (x ∈ a.selectionAxes)) axes)) (fun bins => Spec.Shows sqrt a.correlation axes a.selectionAxes bins f)
      (fun (P : Tensor V → Prop) x => P x.2) (by
        intro bins hb
        obtain ⟨v, m, g1, g2, g3⟩ := shows_bins sqrt a axes f t u hu hs hf bins hb (fun h => ho' ((sizes_nil_iff _ _).1 h))
        refine ⟨(fileName a channel ((axes.filter fun x => decide (x.1 ∉ a.selectionAxes)).map (·.1))
          (binName text channel (axes.filter fun x => decide (x.1 ∈ a.selectionAxes)) bins), m), ?_, g3⟩
        unfold binPlot
        rw [g1]
        show (if _ then _ else _) = _
        rw [if_neg ho', g2]
        rfl)
    refine ⟨(ps, ((grid (Spec.sizes (fun x => decide (x ∈ a.selectionAxes)) axes)).getLast?.map
      (binName text channel (axes.filter fun x => decide (x.1 ∈ a.selectionAxes)))).getD suffix), ?_, h2⟩
    show (if _ then _ else _) = _
    rw [if_neg hsel]
    show Except.map _ (List.mapM (binPlot sqrt text a channel axes t) (grid (Spec.sizes (fun x => decide (x ∈ a.selectionAxes)) axes))) = _
    rw [h1]
    rfl

omit [Field V] in
theorem block_spec (t : Tensor V) (N start stop : Nat) (ht : t.shape = [N, N]) (hs : stop ≤ N) :
    block t start stop = .ok ⟨[stop - start, stop - start], fun ix => t.val [start + ix.getD 0 0, start + ix.getD 1 0]⟩ := by
  unfold block
  rw [ht]
  show Except.ok _ = _
  rw [Nat.min_eq_left hs]

theorem channelLoop_spec (sqrt : V → V) (text : String → Nat → String) (a : Args) (h : Tensor V) (N : Nat) (hN : h.shape = [N, N])
    (chs : Dict String (Ch V)) (start : Nat) (suffix : String) (hle : start + (chs.map fun c => (c.2.axes.map (·.2)).prod).sum ≤ N)
    (ho : ∀ c ∈ chs, ∃ x ∈ c.2.axes, x.1 ∉ a.selectionAxes) :
    ∃ r, channelLoop sqrt text a true chs (some h) start suffix = .ok r ∧
      List.Forall₂ (fun (P : Tensor V → Prop) x => P x.2) (Spec.channels sqrt a (fun i j => h.val [i, j]) start chs) r := by
  induction chs generalizing start suffix with
  | nil => exact ⟨[], rfl, .nil⟩
  | cons c chs ih =>
    obtain ⟨channel, ch⟩ := c
    rw [List.map_cons, List.sum_cons] at hle
    set n := (ch.axes.map (·.2)).prod with hn
    have hb := block_spec h N start (start + n) hN (by omega)
    rw [Nat.add_sub_cancel_left] at hb
    have hfl := flatten_two (⟨[n, n], fun ix => h.val [start + ix.getD 0 0, start + ix.getD 1 0]⟩ : Tensor V) n n rfl
    obtain ⟨m, g1, g2⟩ := shows_all sqrt a ch.axes
      (fun i j => h.val [start + ravel (ch.axes.map (·.2)) i, start + ravel (ch.axes.map (·.2)) j]) _ _ hfl rfl (fun i _ j _ => rfl)
    obtain ⟨ps, k1, k2⟩ := binPlots_spec sqrt text a channel suffix ch.axes
      (fun i j => h.val [start + ravel (ch.axes.map (·.2)) i, start + ravel (ch.axes.map (·.2)) j]) _ _ hfl rfl (fun i _ j _ => rfl)
      (ho (channel, ch) (by simp))
    obtain ⟨r, l1, l2⟩ := ih (start + n) ps.2 (by omega) fun c hc => ho c (List.mem_cons_of_mem _ hc)
    refine ⟨(fileName a channel (ch.axes.map (·.1)) suffix, m) :: (ps.1 ++ r), ?_, ?_⟩
    · show (block h start (start + n)).bind _ = _
      rw [hb, ok_bind, g1, ok_bind, k1, ok_bind, l1]
      rfl
    · show List.Forall₂ _ (_ :: _ ++ _) _
      exact .cons g2 (List.rel_append k2 l2)

/-! ## C86 -/

/-- C86.  Mapping with several channels: the whole matrix, and for every channel the covariance of its own bins (or their correlation), whole and in
every bin of the selection axes. -/
theorem c86_channels (sqrt : V → V) (text : String → Nat → String) (a : Args) (suffix : String) (h : Tensor V) (chs : Dict String (Ch V))
    (h2 : 2 ≤ chs.length) (hN : h.shape = [(chs.map fun c => (c.2.axes.map (·.2)).prod).sum, (chs.map fun c => (c.2.axes.map (·.2)).prod).sum])
    (ho : ∀ c ∈ chs, ∃ x ∈ c.2.axes, x.1 ∉ a.selectionAxes) :
    ∃ r, instancePlots sqrt text a suffix ⟨some h, chs⟩ = .ok r ∧
      List.Forall₂ (fun (P : Tensor V → Prop) x => P x.2)
        (Spec.Shows sqrt a.correlation [("bins", (chs.map fun c => (c.2.axes.map (·.2)).prod).sum)] [] [] (fun i j => h.val (i ++ j)) ::
          Spec.channels sqrt a (fun i j => h.val [i, j]) 0 chs) r := by
  obtain ⟨r, h3, h4⟩ := channelLoop_spec sqrt text a h _ hN chs 0 suffix (by omega) ho
  obtain ⟨m, g1, g2⟩ := shows_all sqrt a [("bins", (chs.map fun c => (c.2.axes.map (·.2)).prod).sum)] (fun i j => h.val (i ++ j)) h h
    (flatten_two h _ _ hN) (by rw [hN]; simp) (by
      intro i hi j hj
      obtain ⟨k, i', rfl, _, hi⟩ := grid_cons_iff.1 hi
      obtain ⟨l, j', rfl, _, hj⟩ := grid_cons_iff.1 hj
      have e1 : i' = [] := by simpa using length_of_mem_grid hi
      have e2 : j' = [] := by simpa using length_of_mem_grid hj
      subst e1 e2
      simp [ravel])
  refine ⟨(fileName a "" [] suffix, m) :: r, ?_, .cons g2 h4⟩
  unfold instancePlots
  show (plotMatrix sqrt a h).bind _ = _
  rw [g1, ok_bind]
  show Except.map _ (channelLoop sqrt text a (decide (1 < chs.length)) chs (some h) 0 suffix) = _
  rw [decide_eq_true (by omega : 1 < chs.length), h3]
  rfl

/-- C86.  Mapping with one channel: the whole matrix, and the bins of the other axes in every bin of the selection axes. -/
theorem c86_single (sqrt : V → V) (text : String → Nat → String) (a : Args) (suffix channel : String) (h : Tensor V) (ch : Ch V)
    (hN : h.shape = [(ch.axes.map (·.2)).prod, (ch.axes.map (·.2)).prod]) (ho : ∃ x ∈ ch.axes, x.1 ∉ a.selectionAxes) :
    ∃ r, instancePlots sqrt text a suffix ⟨some h, [(channel, ch)]⟩ = .ok r ∧
      List.Forall₂ (fun (P : Tensor V → Prop) x => P x.2)
        (Spec.channel sqrt a ch.axes fun i j => h.val [ravel (ch.axes.map (·.2)) i, ravel (ch.axes.map (·.2)) j]) r := by
  obtain ⟨m, g1, g2⟩ := shows_all sqrt a ch.axes (fun i j => h.val [ravel (ch.axes.map (·.2)) i, ravel (ch.axes.map (·.2)) j]) h h
    (flatten_two h _ _ hN) hN (fun _ _ _ _ => rfl)
  obtain ⟨ps, k1, k2⟩ := binPlots_spec sqrt text a channel suffix ch.axes
    (fun i j => h.val [ravel (ch.axes.map (·.2)) i, ravel (ch.axes.map (·.2)) j]) h h (flatten_two h _ _ hN) hN (fun _ _ _ _ => rfl) ho
  refine ⟨(fileName a "" [] suffix, m) :: (ps.1 ++ []), ?_, .cons g2 (by rw [List.append_nil]; exact k2)⟩
  unfold instancePlots
  show (plotMatrix sqrt a h).bind _ = _
  rw [g1, ok_bind]
  show Except.map _ ((binPlots sqrt text a channel ch.axes h suffix).bind _) = _
  rw [k1, ok_bind]
  rfl

/-- C86, the part that holds of covariances stored for each channel (those of the data): a mapping with one channel.  (Missing: several channels, see
`c86_data_violated`.) -/
theorem c86_data_partial (sqrt : V → V) (text : String → Nat → String) (a : Args) (suffix channel : String) (c : Tensor V)
    (axes : List (String × Nat)) (hc : c.shape = axes.map (·.2) ++ axes.map (·.2)) (ho : ∃ x ∈ axes, x.1 ∉ a.selectionAxes) :
    ∃ r, instancePlots sqrt text a suffix ⟨none, [(channel, ⟨axes, some c⟩)]⟩ = .ok r ∧
      List.Forall₂ (fun (P : Tensor V → Prop) x => P x.2) (Spec.channel sqrt a axes fun i j => c.val (i ++ j)) r := by
  have hne : axes.map (·.2) ≠ [] := by
    obtain ⟨x, hx, _⟩ := ho
    rw [Ne, List.map_eq_nil_iff]
    exact List.ne_nil_of_mem hx
  obtain ⟨u, h1, h2, h3⟩ := flatten_spec c _ hne hc
  obtain ⟨m, g1, g2⟩ := shows_all sqrt a axes (fun i j => c.val (i ++ j)) c u h1 h2 h3
  obtain ⟨ps, k1, k2⟩ := binPlots_spec sqrt text a channel suffix axes (fun i j => c.val (i ++ j)) c u h1 h2 h3 ho
  refine ⟨(fileName a channel (axes.map (·.1)) suffix, m) :: (ps.1 ++ []), ?_, .cons g2 (by rw [List.append_nil]; exact k2)⟩
  show (plotMatrix sqrt a c).bind _ = _
  rw [g1, ok_bind, k1, ok_bind]
  rfl

/-- C86 fails for covariances stored for each channel: the first one is kept in the variable for the covariance of all channels, and the second
channel shows the first bins of the first channel under its own name. -/
theorem c86_data_violated (sqrt : V → V) (text : String → Nat → String) (a : Args) (suffix c1 c2 x1 x2 : String) (n m : Nat) (hmn : m ≤ n)
    (t1 t2 : Tensor V) (h1 : t1.shape = [n, n]) (hx1 : x1 ∉ a.selectionAxes) (hx2 : x2 ∉ a.selectionAxes) :
    ∃ p q, instancePlots sqrt text a suffix ⟨none, [(c1, ⟨[(x1, n)], some t1⟩), (c2, ⟨[(x2, m)], some t2⟩)]⟩ =
      .ok [(fileName a c1 [x1] suffix, p), (fileName a c2 [x2] suffix, q)] ∧
      Spec.Shows sqrt a.correlation [(x1, n)] [] [] (fun i j => t1.val (i ++ j)) p ∧
      Spec.Shows sqrt a.correlation [(x2, m)] [] [] (fun i j => t1.val (i ++ j)) q := by
  have key : ∀ (x : String) (k : Nat) (t : Tensor V), t.shape = [k, k] → (∀ i j, t.val [i, j] = t1.val [i, j]) →
      ∃ p, plotMatrix sqrt a t = .ok p ∧ Spec.Shows sqrt a.correlation [(x, k)] [] [] (fun i j => t1.val (i ++ j)) p := by
    intro x k t ht hv
    refine shows_all sqrt a [(x, k)] (fun i j => t1.val (i ++ j)) t t (flatten_two t _ _ ht) (by rw [ht]; simp) ?_
    intro i hi j hj
    obtain ⟨i0, i', rfl, _, hi⟩ := grid_cons_iff.1 hi
    obtain ⟨j0, j', rfl, _, hj⟩ := grid_cons_iff.1 hj
    have e1 : i' = [] := by simpa using length_of_mem_grid hi
    have e2 : j' = [] := by simpa using length_of_mem_grid hj
    subst e1 e2
    simpa [ravel] using hv i0 j0
  have hsel : ∀ (c x : String) (k : Nat) (t : Tensor V), x ∉ a.selectionAxes → binPlots sqrt text a c [(x, k)] t suffix = .ok ([], suffix) := by
    intro c x k t hx
    refine if_pos ?_
    simpa using hx
  obtain ⟨p, p1, p2⟩ := key x1 n t1 h1 fun _ _ => rfl
  have hb := block_spec t1 n 0 m h1 hmn
  obtain ⟨q, q1, q2⟩ := key x2 m ⟨[m - 0, m - 0], fun ix => t1.val [0 + ix.getD 0 0, 0 + ix.getD 1 0]⟩ rfl (by simp)
  refine ⟨p, q, ?_, p2, q2⟩
  show (plotMatrix sqrt a t1).bind _ = _
  rw [p1, ok_bind, hsel c1 x1 n t1 hx1, ok_bind]
  show Except.map _ ((block t1 0 (0 + m * 1)).bind _) = _
  rw [Nat.mul_one, Nat.zero_add, hb, ok_bind, q1, ok_bind, hsel c2 x2 m _ hx2, ok_bind]
  rfl

/-- C86 fails for covariances stored for each channel when the first channel has several axes: the matrix is cut with two indices, which raises. -/
theorem c86_data_axes_violated (sqrt : V → V) (text : String → Nat → String) (a : Args) (suffix c1 c2 : String) (ch : Ch V) (axes : List (String × Nat))
    (t1 : Tensor V) (h1 : t1.shape = axes.map (·.2) ++ axes.map (·.2)) (hax : 2 ≤ axes.length) (hx : ∀ x ∈ axes, x.1 ∉ a.selectionAxes) :
    instancePlots sqrt text a suffix ⟨none, [(c1, ⟨axes, some t1⟩), (c2, ch)]⟩ = .error .index := by
  have hne : axes.map (·.2) ≠ [] := by
    rw [Ne, List.map_eq_nil_iff]
    rintro rfl
    simp at hax
  obtain ⟨u, g1, g2, g3⟩ := flatten_spec t1 _ hne h1
  obtain ⟨p, p1, _⟩ := plotMatrix_spec sqrt a t1 u g1
  have hs : binPlots sqrt text a c1 axes t1 suffix = .ok ([], suffix) := by
    refine if_pos (List.filter_eq_nil_iff.2 ?_)
    simpa using fun x n hm => hx (x, n) hm
  have hb : ∀ s, block t1 0 s = .error .index := by
    intro s
    unfold block
    rcases axes with _ | ⟨x, _ | ⟨y, axes⟩⟩
    · simp at hax
    · simp at hax
    · rw [h1]
      rcases axes with _ | ⟨z, axes⟩ <;> rfl
  show (plotMatrix sqrt a t1).bind _ = _
  rw [p1, ok_bind, hs, ok_bind]
  show Except.map _ ((block t1 0 _).bind _) = _
  rw [hb]
  rfl

/-- C86 fails for selections of all axes of a channel: what is left is a number, for which the plot raises. -/
theorem c86_all_axes_violated (sqrt : V → V) (text : String → Nat → String) (a : Args) (suffix channel : String) (h : Tensor V)
    (axes : List (String × Nat)) (hne : axes ≠ []) (hN : h.shape = [(axes.map (·.2)).prod, (axes.map (·.2)).prod])
    (hpos : ∀ x ∈ axes, 0 < x.2) (hx : ∀ x ∈ axes, x.1 ∈ a.selectionAxes) :
    instancePlots sqrt text a suffix ⟨some h, [(channel, ⟨axes, none⟩)]⟩ = .error .attr := by
  have hf : (axes.filter fun x => decide (x.1 ∈ a.selectionAxes)) = axes := List.filter_eq_self.2 (by simpa using fun x n hm => hx (x, n) hm)
  have hf' : (axes.filter fun x => decide (x.1 ∉ a.selectionAxes)) = [] := List.filter_eq_nil_iff.2 (by simpa using fun x n hm => hx (x, n) hm)
  obtain ⟨m, m1, _⟩ := plotMatrix_spec sqrt a h h (flatten_two h _ _ hN)
  have hz : ∀ L : List (String × Nat), (∀ x ∈ L, 0 < x.2) → ∃ b bs, grid (L.map (·.2)) = b :: bs := by
    intro L hL
    have : (grid (L.map (·.2))).length ≠ 0 := by
      rw [length_grid]
      refine Nat.pos_iff_ne_zero.1 (List.prod_pos ?_)
      simpa using fun n x hm => hL (x, n) hm
    rcases hg : grid (L.map (·.2)) with _ | ⟨b, bs⟩
    · rw [hg] at this
      simp at this
    · exact ⟨b, bs, hg⟩
  obtain ⟨b, bs, hg⟩ := hz axes hpos
  have hb : b ∈ grid (Spec.sizes (fun x => decide (x ∈ a.selectionAxes)) axes) := by
    unfold Spec.sizes
    rw [hf, hg]
    simp
  obtain ⟨v, v1, _⟩ := binCov_spec a.selectionAxes axes h h (flatten_two h _ _ hN) b hb hN
  have hbp : binPlot sqrt text a channel axes h b = .error .attr := by
    unfold binPlot
    rw [v1, ok_bind, hf', if_pos rfl]
  have hbps : binPlots sqrt text a channel axes h suffix = .error .attr := by
    unfold binPlots
    rw [hf]
    show (if axes = [] then _ else _) = _
    rw [if_neg hne, hg, List.mapM_cons, hbp]
    rfl
  unfold instancePlots
  show (plotMatrix sqrt a h).bind _ = _
  rw [m1, ok_bind]
  show Except.map _ ((binPlots sqrt text a channel axes h suffix).bind _) = _
  rw [hbps]
  rfl

omit [Field V] in
/-- C86.  Covariance of parameters: without names all of them, with names the covariances of the named ones in the order of the names, labelled by
the names. -/
theorem c86_params (K : String → String → V) (parms : List String) (cov : Nat → Nat → V)
    (hcov : ∀ i j, (hi : i < parms.length) → (hj : j < parms.length) → cov i j = K parms[i] parms[j]) (req : List String) (hreq : ∀ p ∈ req, p ∈ parms) :
    ∃ ticks t, paramCov parms cov req = .ok (ticks, t) ∧ ticks = (if req = [] then none else some req) ∧
      t.shape = (let L := if req = [] then parms else req; [L.length, L.length]) ∧
      ∀ i j, (hi : i < (if req = [] then parms else req).length) → (hj : j < (if req = [] then parms else req).length) →
        t.val [i, j] = K (if req = [] then parms else req)[i] (if req = [] then parms else req)[j] := by
  unfold paramCov
  by_cases hr : req = []
  · rw [if_pos hr]
    refine ⟨_, _, rfl, by rw [if_pos hr], by simp [hr], fun i j hi hj => ?_⟩
    simp only [hr, if_true] at hi hj ⊢
    exact hcov i j hi hj
  · have key : ∀ i, (hi : i < req.length) → ∃ h : (req.map fun p => parms.idxOf p).getD i 0 < parms.length,
        parms[(req.map fun p => parms.idxOf p).getD i 0] = req[i] := by
      intro i hi
      have e : (req.map fun p => parms.idxOf p).getD i 0 = parms.idxOf req[i] := by
        rw [List.getD_eq_getElem?_getD, List.getElem?_map, List.getElem?_eq_getElem hi]
        rfl
      have hm := hreq req[i] (List.getElem_mem hi)
      have hl := List.idxOf_lt_length_of_mem hm
      refine ⟨by rw [e]; exact hl, ?_⟩
      simp only [e]
      exact List.getElem_idxOf hl
    rw [if_neg hr, if_neg (by simpa using hreq)]
    refine ⟨_, _, rfl, ?_, by simp [hr], fun i j hi hj => ?_⟩
    · rw [if_neg hr, List.map_map]
      congr 1
      conv_rhs => rw [← List.map_id req]
      refine List.map_congr_left fun p hp => ?_
      show parms.getD (parms.idxOf p) "" = p
      have hl := List.idxOf_lt_length_of_mem (hreq p hp)
      rw [List.getD_eq_getElem?_getD, List.getElem?_eq_getElem hl, List.getElem_idxOf hl]
      rfl
    · simp only [hr, if_false] at hi hj ⊢
      obtain ⟨ki, ei⟩ := key i hi
      obtain ⟨kj, ej⟩ := key j hj
      show cov ((req.map fun p => parms.idxOf p).getD i 0) ((req.map fun p => parms.idxOf p).getD j 0) = _
      rw [hcov _ _ ki kj, ei, ej]

omit [Field V] in
/-- C86.  Unknown parameters are refused (though with an exception of another kind than the message intended for them). -/
theorem c86_missing (parms : List String) (cov : Nat → Nat → V) (req : List String) (p : String) (hp : p ∈ req) (hn : p ∉ parms) :
    paramCov parms cov req = .error .type := by
  unfold paramCov
  rw [if_neg (List.ne_nil_of_mem hp), if_pos fun h => hn (h p hp)]

/-- C86.  Correlations: one on the diagonal and never larger than one, for every covariance (non-negative quadratic form) with positive variances. -/
theorem c86_correlation (t : Tensor ℝ) (n : Nat) (ht : t.shape = [n, n]) (hpos : ∀ i, i < n → 0 < t.val [i, i])
    (hpsd : ∀ i j, i < n → j < n → ∀ x y : ℝ, 0 ≤ x ^ 2 * t.val [i, i] + 2 * x * y * t.val [i, j] + y ^ 2 * t.val [j, j]) (a : Args)
    (ha : a.correlation = true) :
    ∃ m, plotMatrix Real.sqrt a t = .ok m ∧ m.shape = [n, n] ∧ (∀ i, i < n → m.val [i, i] = 1) ∧
      ∀ i j, i < n → j < n → |m.val [i, j]| ≤ 1 ∧ m.val [i, j] * (Real.sqrt (t.val [i, i]) * Real.sqrt (t.val [j, j])) = t.val [i, j] := by
  obtain ⟨m, h1, h2, h3⟩ := plotMatrix_spec Real.sqrt a t t (flatten_two t _ _ ht)
  refine ⟨m, h1, by rw [h2, ht], fun i hi => ?_, fun i j hi hj => ?_⟩
  · rw [h3, ha, if_pos rfl, Real.mul_self_sqrt (hpos i hi).le]
    exact div_self (hpos i hi).ne'
  · have pi := Real.sqrt_pos.2 (hpos i hi)
    have pj := Real.sqrt_pos.2 (hpos j hj)
    rw [h3, ha, if_pos rfl]
    refine ⟨?_, div_mul_cancel₀ _ (mul_pos pi pj).ne'⟩
    rw [abs_div, abs_of_pos (mul_pos pi pj), div_le_one (mul_pos pi pj)]
    have si := Real.sq_sqrt (hpos i hi).le
    have sj := Real.sq_sqrt (hpos j hj).le
    set p := Real.sqrt (t.val [i, i])
    set q := Real.sqrt (t.val [j, j])
    have e1 := hpsd i j hi hj q p
    have e2 := hpsd i j hi hj q (-p)
    rw [← si, ← sj] at e1 e2
    have hpq := mul_pos pi pj
    rw [abs_le]
    constructor
    · by_contra hc
      nlinarith
    · by_contra hc
      nlinarith

/-- C86.  The mappings plotted for a request are those whose key begins with it; a request without such a mapping is refused. -/
theorem c86_mapping (keys margs : List String) (h : margs ≠ []) :
    (∀ ks, instanceKeys keys margs = .ok ks → ks ≠ [] ∧ ks.Sublist keys ∧
      ∀ k, k ∈ ks ↔ k ∈ keys ∧ ∃ r, k.toList = (" ".intercalate margs).toList ++ r) ∧
    (instanceKeys keys margs = .error .value ↔ ¬ ∃ k ∈ keys, ∃ r, k.toList = (" ".intercalate margs).toList ++ r) := by
  have hm : ∀ k, k ∈ (keys.filter fun k => (" ".intercalate margs).toList.isPrefixOf k.toList) ↔
      k ∈ keys ∧ ∃ r, k.toList = (" ".intercalate margs).toList ++ r := by
    intro k
    rw [List.mem_filter, List.isPrefixOf_iff_prefix]
    refine and_congr_right fun _ => ?_
    exact ⟨fun ⟨r, hr⟩ => ⟨r, hr.symm⟩, fun ⟨r, hr⟩ => ⟨r, hr.symm⟩⟩
  unfold instanceKeys
  rw [if_neg h]
  by_cases hk : (keys.filter fun k => (" ".intercalate margs).toList.isPrefixOf k.toList) = []
  · refine ⟨fun ks hks => ?_, ?_⟩
    · rw [if_pos hk] at hks
      cases hks
    · rw [if_pos hk]
      refine ⟨fun _ => ?_, fun _ => rfl⟩
      rintro ⟨k, h1, h2⟩
      have := (hm k).2 ⟨h1, h2⟩
      rw [hk] at this
      cases this
  · refine ⟨fun ks hks => ?_, ?_⟩
    · rw [if_neg hk] at hks
      cases hks
      exact ⟨hk, List.filter_sublist, hm⟩
    · rw [if_neg hk]
      refine ⟨(fun hh => nomatch hh), fun hh => ?_⟩
      obtain ⟨k, hmem⟩ := List.exists_mem_of_ne_nil _ hk
      exact absurd ⟨k, (hm k).1 hmem⟩ hh

/-- C86 fails without a request: all mappings are announced as the default (and are what an empty request would give), none is plotted. -/
theorem c86_default_violated (keys : List String) : plottedKeys keys [] = .ok [] ∧ instanceKeys keys [] = .ok keys := ⟨rfl, rfl⟩

theorem mapM_names {α β : Type} (f g : α → Res (String × β)) (L : List α)
    (h : ∀ x ∈ L, ∀ y z, f x = .ok y → g x = .ok z → y.1 = z.1) (r r' : List (String × β)) (hr : L.mapM f = .ok r) (hr' : L.mapM g = .ok r') :
    r.map (·.1) = r'.map (·.1) := by
  induction L generalizing r r' with
  | nil =>
    cases hr
    cases hr'
    rfl
  | cons x L ih =>
    rw [List.mapM_cons] at hr hr'
    cases hf : f x with
    | error e => rw [hf] at hr; cases hr
    | ok y =>
      cases hg : g x with
      | error e => rw [hg] at hr'; cases hr'
      | ok z =>
        rw [hf] at hr
        rw [hg] at hr'
        cases hf' : L.mapM f with
        | error e => rw [hf'] at hr; cases hr
        | ok ys =>
          cases hg' : L.mapM g with
          | error e => rw [hg'] at hr'; cases hr'
          | ok zs =>
            rw [hf'] at hr
            rw [hg'] at hr'
            cases hr
            cases hr'
            rw [List.map_cons, List.map_cons, h x (by simp) y z hf hg, ih (fun x hx => h x (List.mem_cons_of_mem _ hx)) ys zs hf' hg']

theorem binPlot_name (sqrt : V → V) (text : String → Nat → String) (a : Args) (channel : String) (axes : List (String × Nat)) (t : Tensor V)
    (bins : List Nat) (y : String × Tensor V) (h : binPlot sqrt text a channel axes t bins = .ok y) :
    y.1 = fileName a channel ((axes.filter fun x => x.1 ∉ a.selectionAxes).map (·.1))
      (binName text channel (axes.filter fun x => x.1 ∈ a.selectionAxes) bins) := by
  unfold binPlot at h
  cases hv : binCov a.selectionAxes axes t bins with
  | error e => rw [hv] at h; cases h
  | ok v =>
    rw [hv, ok_bind] at h
    split at h
    · cases h
    · cases hm : plotMatrix sqrt a v with
      | error e => rw [hm] at h; cases h
      | ok m =>
        rw [hm] at h
        cases h
        rfl

/-- the names of the plots in bins, and the suffix that is left, do not depend on the covariance -/
theorem binPlots_names (sqrt : V → V) (text : String → Nat → String) (a : Args) (channel suffix : String) (axes : List (String × Nat)) (t t' : Tensor V)
    (ps ps' : List (String × Tensor V) × String) (h : binPlots sqrt text a channel axes t suffix = .ok ps)
    (h' : binPlots sqrt text a channel axes t' suffix = .ok ps') : ps.1.map (·.1) = ps'.1.map (·.1) ∧ ps.2 = ps'.2 := by
  unfold binPlots at h h'
  dsimp only at h h'
  by_cases hs : (axes.filter fun x => decide (x.1 ∈ a.selectionAxes)) = []
  · rw [if_pos hs] at h h'
    cases h
    cases h'
    exact ⟨rfl, rfl⟩
  · rw [if_neg hs] at h h'
    cases hm : (grid ((axes.filter fun x => decide (x.1 ∈ a.selectionAxes)).map (·.2))).mapM (binPlot sqrt text a channel axes t) with
    | error e => rw [hm] at h; cases h
    | ok r =>
      cases hm' : (grid ((axes.filter fun x => decide (x.1 ∈ a.selectionAxes)).map (·.2))).mapM (binPlot sqrt text a channel axes t') with
      | error e => rw [hm'] at h'; cases h'
      | ok r' =>
        rw [hm] at h
        rw [hm'] at h'
        cases h
        cases h'
        refine ⟨mapM_names _ _ _ (fun x _ y z hy hz => ?_) r r' hm hm', rfl⟩
        rw [binPlot_name sqrt text a channel axes t x y hy, binPlot_name sqrt text a channel axes t' x z hz]

theorem bind_ok {α β : Type} {x : Res α} {f : α → Res β} {r : β} (h : x.bind f = .ok r) : ∃ y, x = .ok y ∧ f y = .ok r := by
  cases x with
  | error e => cases h
  | ok y => exact ⟨y, rfl, h⟩

theorem map_ok {α β : Type} {x : Res α} {f : α → β} {r : β} (h : x.map f = .ok r) : ∃ y, x = .ok y ∧ f y = r := by
  cases x with
  | error e => cases h
  | ok y => exact ⟨y, rfl, by cases h; rfl⟩

/-- one step of the loop with several channels -/
theorem channelLoop_step (sqrt : V → V) (text : String → Nat → String) (a : Args) (channel : String) (ch : Ch V) (rest : Dict String (Ch V))
    (h : Tensor V) (start : Nat) (suffix : String) (r : List (String × Tensor V))
    (hr : channelLoop sqrt text a true ((channel, ch) :: rest) (some h) start suffix = .ok r) :
    ∃ c m ps r0, binPlots sqrt text a channel ch.axes c suffix = .ok ps ∧
      channelLoop sqrt text a true rest (some h) (start + (ch.axes.map (·.2)).prod) ps.2 = .ok r0 ∧
      r = (fileName a channel (ch.axes.map (·.1)) suffix, m) :: (ps.1 ++ r0) := by
  obtain ⟨c, _, hr⟩ := bind_ok (x := block h start (start + (ch.axes.map (·.2)).prod)) hr
  obtain ⟨m, _, hr⟩ := bind_ok hr
  obtain ⟨ps, hps, hr⟩ := bind_ok hr
  obtain ⟨r0, hr0, hr⟩ := map_ok hr
  exact ⟨c, m, ps, r0, hps, hr0, hr.symm⟩

theorem channelLoop_names (sqrt : V → V) (text : String → Nat → String) (a : Args) (chs : Dict String (Ch V)) (h h' : Tensor V) (start start' : Nat)
    (suffix : String) (r r' : List (String × Tensor V)) (hr : channelLoop sqrt text a true chs (some h) start suffix = .ok r)
    (hr' : channelLoop sqrt text a true chs (some h') start' suffix = .ok r') : r.map (·.1) = r'.map (·.1) := by
  induction chs generalizing start start' suffix r r' with
  | nil =>
    cases hr
    cases hr'
    rfl
  | cons c chs ih =>
    obtain ⟨channel, ch⟩ := c
    obtain ⟨c, m, ps, r0, h1, h2, rfl⟩ := channelLoop_step sqrt text a channel ch chs h start suffix r hr
    obtain ⟨c', m', ps', r0', h1', h2', rfl⟩ := channelLoop_step sqrt text a channel ch chs h' start' suffix r' hr'
    obtain ⟨e1, e2⟩ := binPlots_names sqrt text a channel suffix ch.axes c c' ps ps' h1 h1'
    rw [← e2] at h2'
    rw [List.map_cons, List.map_cons, List.map_append, List.map_append, e1, ih _ _ _ _ _ h2 h2']

/-- the plots in bins do not depend on the suffix; after them the variable has another value -/
theorem binPlots_suffix (sqrt : V → V) (text : String → Nat → String) (a : Args) (channel suffix suffix' : String) (axes : List (String × Nat))
    (t t' : Tensor V) (ps ps' : List (String × Tensor V) × String) (hsel : ∃ x ∈ axes, x.1 ∈ a.selectionAxes) (hpos : ∀ x ∈ axes, 0 < x.2)
    (h : binPlots sqrt text a channel axes t suffix = .ok ps)
    (h' : binPlots sqrt text a channel axes t' suffix' = .ok ps') : ps.1.map (·.1) = ps'.1.map (·.1) ∧ ps.2 = ps'.2 := by
  have hs : (axes.filter fun x => decide (x.1 ∈ a.selectionAxes)) ≠ [] := by
    obtain ⟨x, h1, h2⟩ := hsel
    exact List.ne_nil_of_mem (List.mem_filter.2 ⟨h1, by simpa using h2⟩)
  have hg : (grid ((axes.filter fun x => decide (x.1 ∈ a.selectionAxes)).map (·.2))) ≠ [] := by
    rw [Ne, ← List.length_eq_zero_iff, length_grid]
    refine Nat.pos_iff_ne_zero.1 (List.prod_pos ?_)
    intro n hn
    obtain ⟨x, hx, rfl⟩ := List.mem_map.1 hn
    exact hpos x (List.mem_filter.1 hx).1
  have e : binPlots sqrt text a channel axes t' suffix' = binPlots sqrt text a channel axes t' suffix := by
    unfold binPlots
    dsimp only
    rw [if_neg hs, if_neg hs, List.getLast?_eq_getLast_of_ne_nil hg]
    rfl
  rw [e] at h'
  exact binPlots_names sqrt text a channel suffix axes t t' ps ps' h h'

/-- C86 fails for the files of a mapping with selection axes: all plots after those of the whole and of the first channel have names without the key of
the mapping (the suffix is replaced by that of the last bin), so that the plots of two mappings with the same channels are written to the same
files. -/
theorem c86_file_violated (sqrt : V → V) (text : String → Nat → String) (a : Args) (suffix suffix' channel : String) (ch : Ch V) (rest : Dict String (Ch V))
    (h h' : Tensor V) (hrest : rest ≠ []) (hsel : ∃ x ∈ ch.axes, x.1 ∈ a.selectionAxes) (hpos : ∀ x ∈ ch.axes, 0 < x.2)
    (r r' : List (String × Tensor V)) (hr : instancePlots sqrt text a suffix ⟨some h, (channel, ch) :: rest⟩ = .ok r)
    (hr' : instancePlots sqrt text a suffix' ⟨some h', (channel, ch) :: rest⟩ = .ok r') :
    (r.drop 2).map (·.1) = (r'.drop 2).map (·.1) := by
  have hl : decide (1 < ((channel, ch) :: rest).length) = true := by
    rw [decide_eq_true_eq, List.length_cons]
    have := List.length_pos_iff.2 hrest
    omega
  have key : ∀ (s : String) (t : Tensor V) (x : List (String × Tensor V)), instancePlots sqrt text a s ⟨some t, (channel, ch) :: rest⟩ = .ok x →
      ∃ m y, channelLoop sqrt text a true ((channel, ch) :: rest) (some t) 0 s = .ok y ∧ x = (fileName a "" [] s, m) :: y := by
    intro s t x hx
    obtain ⟨m, _, hx⟩ := bind_ok (x := plotMatrix sqrt a t) hx
    obtain ⟨y, hy, hx⟩ := map_ok hx
    have hy' : channelLoop sqrt text a (decide (1 < ((channel, ch) :: rest).length)) ((channel, ch) :: rest) (some t) 0 s = .ok y := hy
    rw [hl] at hy'
    exact ⟨m, y, hy', hx.symm⟩
  obtain ⟨m, y, h1, rfl⟩ := key suffix h r hr
  obtain ⟨m', y', h1', rfl⟩ := key suffix' h' r' hr'
  obtain ⟨c, n, ps, r0, h2, h3, rfl⟩ := channelLoop_step sqrt text a channel ch rest h 0 suffix y h1
  obtain ⟨c', n', ps', r0', h2', h3', rfl⟩ := channelLoop_step sqrt text a channel ch rest h' 0 suffix' y' h1'
  obtain ⟨e1, e2⟩ := binPlots_suffix sqrt text a channel suffix suffix' ch.axes c c' ps ps' hsel hpos h2 h2'
  rw [← e2] at h3'
  show (ps.1 ++ r0).map (·.1) = (ps'.1 ++ r0').map (·.1)
  rw [List.map_append, List.map_append, e1, channelLoop_names sqrt text a rest h h' _ _ _ r0 r0' h3 h3']

/-! ## cases -/

namespace Ex86

/-- a covariance of six bins: entry `i`, `j` is `10 * i + j` -/
def C : Tensor ℚ := ⟨[6, 6], fun ix => 10 * (ix.getD 0 0 : ℚ) + ix.getD 1 0⟩

def chs : Dict String (Ch ℚ) := [("a", ⟨[("pt", 2)], none⟩), ("b", ⟨[("eta", 2), ("charge", 2)], none⟩)]

def show' (r : Res (List (String × Tensor ℚ))) : Res (List (String × List Nat × List ℚ)) := r.map fun l => l.map fun x => (x.1, x.2.shape, x.2.flat)

/-- a case of `c86_channels`: the second channel has the bins 2 to 5; with negative charge those are 2 and 4, with positive charge 3 and 5 -/
example : (show' (instancePlots id (fun _ i => if i = 0 then "m1p0" else "1p0") { selectionAxes := ["charge"] } "Select" ⟨some C, chs⟩)).map (fun l => l.drop 1) =
    .ok [("hist_cov_postfit_a_pt_Select", [2, 2], [0, 1, 10, 11]),
      ("hist_cov_postfit_b_eta_charge_Select", [4, 4], [22, 23, 24, 25, 32, 33, 34, 35, 42, 43, 44, 45, 52, 53, 54, 55]),
      ("hist_cov_postfit_b_eta_b_charge_m1p0", [2, 2], [22, 24, 42, 44]), ("hist_cov_postfit_b_eta_b_charge_1p0", [2, 2], [33, 35, 53, 55])] := by
  decide +kernel

/-- a case of `c86_data_violated`: the covariance of the second channel is zero, that of the first one is shown -/
example : show' (instancePlots id (fun _ _ => "") { dataCovariance := true } "" ⟨none, [("a", ⟨[("pt", 2)], some ⟨[2, 2], fun ix => 1 + (ix.sum : ℚ)⟩⟩),
    ("b", ⟨[("eta", 2)], some ⟨[2, 2], fun _ => 0⟩⟩)]⟩) =
    .ok [("hist_cov_data_a_pt", [2, 2], [1, 2, 2, 3]), ("hist_cov_data_b_eta", [2, 2], [1, 2, 2, 3])] := by
  decide +kernel

/-- a case of `c86_data_partial`: two axes, in the first bin of the second one -/
example : show' (instancePlots id (fun _ _ => "") { dataCovariance := true, selectionAxes := ["q"] } "" ⟨none, [("a", ⟨[("pt", 2), ("q", 1)],
    some ⟨[2, 1, 2, 1], fun ix => 10 * (ix.getD 0 0 : ℚ) + ix.getD 2 0⟩⟩)]⟩) =
    .ok [("hist_cov_data_a_pt_q", [2, 2], [0, 1, 10, 11]), ("hist_cov_data_a_pt_a_q_", [2, 2], [0, 1, 10, 11])] := by
  decide +kernel

/-- a case of `c86_file_violated`: the second channel of two mappings -/
example : ∀ s ∈ ["Select", "Project"], (show' (instancePlots id (fun _ _ => "0") { selectionAxes := ["charge"] } s ⟨some C, chs.reverse⟩)).map
    (fun l => (l.drop 2).map (·.1)) = .ok ["hist_cov_postfit_b_eta_b_charge_0", "hist_cov_postfit_b_eta_b_charge_0", "hist_cov_postfit_a_pt_b_charge_0"] := by
  decide +kernel

/-- a case of `c86_params` -/
example : (paramCov ["x", "y", "z"] (fun i j => 10 * (i : ℚ) + j) ["z", "x"]).map (fun p => (p.1, p.2.shape, p.2.flat)) =
    .ok (some ["z", "x"], [2, 2], [22, 20, 2, 0]) := by decide +kernel

/-- a case of `c86_mapping` -/
example : instanceKeys ["Project ch0 pt", "Project ch0 pt eta", "BaseMapping"] ["Project", "ch0", "pt"] = .ok ["Project ch0 pt", "Project ch0 pt eta"] := by
  decide +kernel

/-- a case of `c86_correlation` -/
example : ∀ i j, i < 2 → j < 2 → ∀ x y : ℝ, 0 ≤ x ^ 2 * (fun i j : Nat => if i = j then (4 : ℝ) else -2) i i +
    2 * x * y * (fun i j : Nat => if i = j then (4 : ℝ) else -2) i j + y ^ 2 * (fun i j : Nat => if i = j then (4 : ℝ) else -2) j j := by
  intro i j _ _ x y
  simp only [if_true]
  split
  · nlinarith [sq_nonneg (x + y)]
  · nlinarith [sq_nonneg (x - y), sq_nonneg x, sq_nonneg y]

end Ex86

end Verif.CovPlot
