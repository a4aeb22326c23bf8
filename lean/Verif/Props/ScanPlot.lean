import Verif.Model.ScanPlot
import Verif.Props.ImpactPrint
import Verif.Props.ImpactFrame
import Mathlib.Tactic.Linarith
import Mathlib.Tactic.FieldSimp
import Mathlib.Tactic.Ring
import Mathlib.Tactic.LinearCombination

/-
C85: plots of likelihood scans show the scan and the covariance (bin/rabbit_plot_likelihood_scan.py, bin/rabbit_plot_likelihood_scan2D.py).
-/

namespace Verif.ScanPlot

open Verif.IoTools Verif.ImpactPrint

/-- C85.  One-dimensional scan: the points are those of the scan with a finite likelihood, each with twice its own likelihood, ordered by the
parameter. -/
theorem c85_scan {V : Type} [Field V] [LinearOrder V] (argsort : List V → List Nat) (ha : ImpactPrint.Spec.Argsort argsort)
    (scan : List (V × Option V)) :
    ∃ points : List (V × V), scanPoints argsort (scan.map Prod.fst) (scan.map Prod.snd) = .ok points ∧
      points.Perm (scan.filterMap fun p => p.2.map fun v => (p.1, v * 2)) ∧ (points.map Prod.fst).Pairwise (· ≤ ·) := by
  let fin := scan.filter fun p => p.2.isSome
  have hm : (scan.map Prod.snd).map Option.isSome = scan.map fun p => p.2.isSome := by rw [List.map_map]; rfl
  obtain ⟨h1, h2⟩ := ha (fin.map Prod.fst)
  rw [List.length_map] at h1
  have hlt : ∀ i ∈ argsort (fin.map Prod.fst), i < fin.length := fun i hi => List.mem_range.1 (h1.mem_iff.1 hi)
  let g : Nat → V × Option V := fun i => fin.getD i (0, none)
  have e1 : ∀ i ∈ argsort (fin.map Prod.fst), (fin.map Prod.fst).getD i 0 = (g i).1 := fun i hi =>
    getD_map_range fin Prod.fst 0 (0, none) i (hlt i hi)
  have e2 : ∀ i ∈ argsort (fin.map Prod.fst), ((fin.map Prod.snd).map fun v => v.getD 0 * 2).getD i 0 = (g i).2.getD 0 * 2 := fun i hi => by
    rw [List.map_map]
    exact getD_map_range fin ((fun v => v.getD 0 * 2) ∘ Prod.snd) 0 (0, none) i (hlt i hi)
  refine ⟨(argsort (fin.map Prod.fst)).map fun i => ((g i).1, (g i).2.getD 0 * 2), ?_, ?_, ?_⟩
  · unfold scanPoints
    rw [hm, ImpactFrame.maskList_map, ok_bind, ImpactFrame.maskList_map, ok_bind]
    dsimp only
    rw [takeList_eq 0 _ _ (by simpa using hlt), ok_bind, takeList_eq 0 _ _ (by simpa using hlt), ok_map,
      List.map_congr_left e1, List.map_congr_left e2, ImpactFrame.zip_maps]
  · have hp : ((argsort (fin.map Prod.fst)).map fun i => ((g i).1, (g i).2.getD 0 * 2)).Perm
        ((List.range fin.length).map fun i => ((g i).1, (g i).2.getD 0 * 2)) := h1.map _
    refine hp.trans (List.Perm.of_eq ?_)
    have : (List.range fin.length).map (fun i => ((g i).1, (g i).2.getD 0 * 2)) =
        ((List.range fin.length).map g).map fun p => (p.1, p.2.getD 0 * 2) := by rw [List.map_map]; rfl
    rw [this, map_getD_range]
    show (scan.filter fun p => p.2.isSome).map _ = _
    clear * -
    induction scan with
    | nil => rfl
    | cons p scan ih =>
      obtain ⟨x, _ | v⟩ := p
      · simpa using ih
      · simpa using ih
  · rw [List.map_map]
    rw [List.map_congr_left e1] at h2
    exact h2

/-- C85.  The parabola is the square of the deviation in units of the uncertainty. -/
theorem c85_parabola {V : Type} [Field V] (value sigma n : V) (hs : sigma ≠ 0) : parabola value (sigma ^ 2) (value + n * sigma) = n ^ 2 := by
  unfold parabola
  field_simp
  ring

/-! ## the ellipse -/

/-- the directions of the ellipse diagonalise the covariance -/
theorem eigen_dir (a b c : ℝ) :
    let l := eigen a b c
    let s := Real.sin (arctan2 (l.1 - a) b)
    let k := Real.cos (arctan2 (l.1 - a) b)
    a = l.1 * k ^ 2 + l.2 * s ^ 2 ∧ b = (l.1 - l.2) * (k * s) ∧ c = l.1 * s ^ 2 + l.2 * k ^ 2 ∧ k ^ 2 + s ^ 2 = 1 := by
  intro l s k
  have hR : 0 ≤ (a - c) ^ 2 / 4 + b ^ 2 := by positivity
  have hsq := Real.sq_sqrt hR
  have hsum : l.1 + l.2 = a + c := by
    show (a + c) / 2 + _ + ((a + c) / 2 - _) = _
    ring
  have hchar : l.1 ^ 2 - (a + c) * l.1 + (a * c - b ^ 2) = 0 := by
    show ((a + c) / 2 + Real.sqrt ((a - c) ^ 2 / 4 + b ^ 2)) ^ 2 - (a + c) * ((a + c) / 2 + Real.sqrt ((a - c) ^ 2 / 4 + b ^ 2)) + _ = 0
    nlinarith [hsq]
  have hone : k ^ 2 + s ^ 2 = 1 := Real.cos_sq_add_sin_sq _
  have heig : (a * k + b * s = l.1 * k) ∧ (b * k + c * s = l.1 * s) := by
    let z : ℂ := ⟨b, l.1 - a⟩
    have hk : ‖z‖ * k = b := Complex.norm_mul_cos_arg z
    have hs : ‖z‖ * s = l.1 - a := Complex.norm_mul_sin_arg z
    by_cases hz : z = 0
    · have hb : b = 0 := congrArg Complex.re hz
      have hl : l.1 - a = 0 := congrArg Complex.im hz
      have hk1 : k = 1 := by
        show Real.cos (Complex.arg z) = 1
        rw [hz, Complex.arg_zero, Real.cos_zero]
      have hs0 : s = 0 := by
        show Real.sin (Complex.arg z) = 0
        rw [hz, Complex.arg_zero, Real.sin_zero]
      rw [hk1, hs0, hb]
      constructor
      · linarith
      · ring
    · have hn : ‖z‖ ≠ 0 := norm_ne_zero_iff.2 hz
      constructor
      · apply mul_left_cancel₀ hn
        linear_combination (a - l.1) * hk + b * hs
      · apply mul_left_cancel₀ hn
        linear_combination b * hk + (c - l.1) * hs - hchar
  obtain ⟨h1, h2⟩ := heig
  refine ⟨?_, ?_, ?_, hone⟩
  · linear_combination (-a) * hone + k * h1 - s ^ 2 * hsum - s * h2
  · linear_combination (-b) * hone + k * h2 + s * h1 + k * s * hsum
  · linear_combination (-c) * hone + s * h2 - k ^ 2 * hsum - k * h1

theorem eigen_pos {a b c : ℝ} (ha : 0 < a) (hd : 0 < a * c - b ^ 2) :
    0 < (eigen a b c).2 ∧ (eigen a b c).2 ≤ (eigen a b c).1 ∧ (eigen a b c).1 * (eigen a b c).2 = a * c - b ^ 2 := by
  have hR : 0 ≤ (a - c) ^ 2 / 4 + b ^ 2 := by positivity
  have hsq := Real.sq_sqrt hR
  have h0 := Real.sqrt_nonneg ((a - c) ^ 2 / 4 + b ^ 2)
  have hc : 0 < c := by
    have : 0 < a * c := by nlinarith [sq_nonneg b]
    exact (pos_iff_pos_of_mul_pos this).1 ha
  have hprod : (eigen a b c).1 * (eigen a b c).2 = a * c - b ^ 2 := by
    show ((a + c) / 2 + _) * ((a + c) / 2 - _) = _
    linear_combination -hsq
  have hle : (eigen a b c).2 ≤ (eigen a b c).1 := by
    show (a + c) / 2 - _ ≤ (a + c) / 2 + _
    linarith
  have h1 : 0 < (eigen a b c).1 := by
    show 0 < (a + c) / 2 + _
    positivity
  refine ⟨?_, hle, hprod⟩
  rw [← hprod] at hd
  exact (pos_iff_pos_of_mul_pos hd).1 h1

/-- C85.  Every point of the ellipse has the requested distance from the best fit in the metric of the inverse covariance. -/
theorem c85_ellipse {a b c : ℝ} (ha : 0 < a) (hd : 0 < a * c - b ^ 2) (mu0 mu1 : ℝ) {cl : ℝ} (hcl : 0 ≤ cl) (t : ℝ) :
    let x := (ellipse a b c mu0 mu1 cl t).1 - mu0
    let y := (ellipse a b c mu0 mu1 cl t).2 - mu1
    (c * x ^ 2 - 2 * b * x * y + a * y ^ 2) / (a * c - b ^ 2) = cl := by
  intro x y
  obtain ⟨hp2, hle, hprod⟩ := eigen_pos ha hd
  obtain ⟨e1, e2, e3, e4⟩ := eigen_dir a b c
  have q1 := Real.sq_sqrt (mul_nonneg hcl (hp2.le.trans hle))
  have q2 := Real.sq_sqrt (mul_nonneg hcl hp2.le)
  have hx : x = Real.sqrt (cl * (eigen a b c).1) * Real.cos (arctan2 ((eigen a b c).1 - a) b) * Real.cos t -
      Real.sqrt (cl * (eigen a b c).2) * Real.sin (arctan2 ((eigen a b c).1 - a) b) * Real.sin t := by
    show mu0 + _ - _ - mu0 = _
    ring
  have hy : y = Real.sqrt (cl * (eigen a b c).1) * Real.sin (arctan2 ((eigen a b c).1 - a) b) * Real.cos t +
      Real.sqrt (cl * (eigen a b c).2) * Real.cos (arctan2 ((eigen a b c).1 - a) b) * Real.sin t := by
    show mu1 + _ + _ - mu1 = _
    ring
  have ht := Real.cos_sq_add_sin_sq t
  rw [div_eq_iff hd.ne', ← hprod]
  clear_value x y
  generalize Real.sqrt (cl * (eigen a b c).1) = r1 at *
  generalize Real.sqrt (cl * (eigen a b c).2) = r2 at *
  generalize Real.sin (arctan2 ((eigen a b c).1 - a) b) = s at *
  generalize Real.cos (arctan2 ((eigen a b c).1 - a) b) = k at *
  generalize (eigen a b c).1 = l1 at *
  generalize (eigen a b c).2 = l2 at *
  generalize Real.cos t = C at *
  generalize Real.sin t = S at *
  have u : k * x + s * y = r1 * C := by rw [hx, hy]; linear_combination r1 * C * e4
  have w : -s * x + k * y = r2 * S := by rw [hx, hy]; linear_combination r2 * S * e4
  have key : c * x ^ 2 - 2 * b * x * y + a * y ^ 2 = l2 * (k * x + s * y) ^ 2 + l1 * (-s * x + k * y) ^ 2 := by
    rw [e1, e2, e3]; ring
  rw [key, u, w]
  linear_combination l2 * C ^ 2 * q1 + l1 * S ^ 2 * q2 + cl * l1 * l2 * ht

/-- C85.  The ellipse is complete: every point at the requested distance is on it. -/
theorem c85_ellipse_all {a b c : ℝ} (ha : 0 < a) (hd : 0 < a * c - b ^ 2) (mu0 mu1 : ℝ) {cl : ℝ} (hcl : 0 < cl) (px py : ℝ)
    (h : (c * (px - mu0) ^ 2 - 2 * b * (px - mu0) * (py - mu1) + a * (py - mu1) ^ 2) / (a * c - b ^ 2) = cl) :
    ∃ t, ellipse a b c mu0 mu1 cl t = (px, py) := by
  obtain ⟨hp2, hle, hprod⟩ := eigen_pos ha hd
  obtain ⟨e1, e2, e3, e4⟩ := eigen_dir a b c
  have hp1 := hp2.trans_le hle
  have q1 := Real.sq_sqrt (mul_pos hcl hp1).le
  have q2 := Real.sq_sqrt (mul_pos hcl hp2).le
  have r1pos := Real.sqrt_pos.2 (mul_pos hcl hp1)
  have r2pos := Real.sqrt_pos.2 (mul_pos hcl hp2)
  rw [div_eq_iff hd.ne', ← hprod] at h
  unfold ellipse
  dsimp only
  generalize Real.sqrt (cl * (eigen a b c).1) = r1 at *
  generalize Real.sqrt (cl * (eigen a b c).2) = r2 at *
  generalize Real.sin (arctan2 ((eigen a b c).1 - a) b) = s at *
  generalize Real.cos (arctan2 ((eigen a b c).1 - a) b) = k at *
  generalize (eigen a b c).1 = l1 at *
  generalize (eigen a b c).2 = l2 at *
  let p := (k * (px - mu0) + s * (py - mu1)) / r1
  let q := (-s * (px - mu0) + k * (py - mu1)) / r2
  have hpr : p * r1 = k * (px - mu0) + s * (py - mu1) := div_mul_cancel₀ _ r1pos.ne'
  have hqr : q * r2 = -s * (px - mu0) + k * (py - mu1) := div_mul_cancel₀ _ r2pos.ne'
  have key : c * (px - mu0) ^ 2 - 2 * b * (px - mu0) * (py - mu1) + a * (py - mu1) ^ 2 = l2 * (p * r1) ^ 2 + l1 * (q * r2) ^ 2 := by
    rw [hpr, hqr, e1, e2, e3]; ring
  have hpq : p ^ 2 + q ^ 2 = 1 := by
    have hne : cl * (l1 * l2) ≠ 0 := (mul_pos hcl (mul_pos hp1 hp2)).ne'
    apply mul_left_cancel₀ hne
    rw [key] at h
    linear_combination h - l2 * p ^ 2 * q1 - l1 * q ^ 2 * q2
  let z : ℂ := ⟨p, q⟩
  have hn : ‖z‖ = 1 := by
    have : ‖z‖ ^ 2 = 1 := by
      rw [Complex.sq_norm, Complex.normSq_mk]
      linarith
    have h0 := norm_nonneg z
    nlinarith
  have hk : Real.cos (Complex.arg z) = p := by
    have := Complex.norm_mul_cos_arg z
    rwa [hn, one_mul] at this
  have hs : Real.sin (Complex.arg z) = q := by
    have := Complex.norm_mul_sin_arg z
    rwa [hn, one_mul] at this
  refine ⟨Complex.arg z, ?_⟩
  rw [hk, hs, Prod.mk.injEq]
  constructor
  · linear_combination k * hpr - s * hqr + (px - mu0) * e4
  · linear_combination s * hpr + k * hqr + (py - mu1) * e4

/-- C85.  With scaled parameters the ellipse belongs to the covariance of the scaled parameters: the distance is that of the unscaled ones. -/
theorem c85_scaled (sx sy a b c x y : ℝ) (hx : sx ≠ 0) (hy : sy ≠ 0) :
    let C := scaledCov sx sy a b c
    (C.2.2 * (sx * x) ^ 2 - 2 * C.2.1 * (sx * x) * (sy * y) + C.1 * (sy * y) ^ 2) / (C.1 * C.2.2 - C.2.1 ^ 2) =
      (c * x ^ 2 - 2 * b * x * y + a * y ^ 2) / (a * c - b ^ 2) := by
  intro C
  show (sy * sy * c * (sx * x) ^ 2 - 2 * (sx * sy * b) * (sx * x) * (sy * y) + sx * sx * a * (sy * y) ^ 2) /
    (sx * sx * a * (sy * sy * c) - (sx * sy * b) ^ 2) = _
  have h0 : (sx * sy) ^ 2 ≠ 0 := pow_ne_zero _ (mul_ne_zero hx hy)
  rw [← mul_div_mul_left (c * x ^ 2 - 2 * b * x * y + a * y ^ 2) (a * c - b ^ 2) h0]
  congr 1 <;> ring

/-! ## the map -/

/-- the points of a map, by position -/
theorem mesh_at {V : Type} (n : Nat) (X Y : Nat → V) (F : Nat → Nat → V) :
    mesh ((List.range n).map X) ((List.range n).map Y) ((List.range n).map fun i => (List.range n).map fun j => F i j) =
      .ok ((List.range n).flatMap fun i => (List.range n).map fun j => ((X j, Y i), F i j)) := by
  unfold mesh
  rw [if_pos ⟨by simp, by simp⟩, ImpactFrame.zip_maps, List.flatMap_map]
  congr 2
  funext i
  dsimp only
  rw [ImpactFrame.zip_maps, List.map_map]
  rfl

/-- the map that is drawn, for a scan with the likelihood `F i j` at the point with the coordinates `X i` and `Y j` -/
theorem map_drawn {V : Type} [Field V] (sx sy : V) (n : Nat) (X Y : Nat → V) (F : Nat → Nat → V) :
    scanMap sx sy ((List.range n).map X) ((List.range n).map Y) ((List.range n).map fun i => (List.range n).map fun j => F i j) =
      .ok ((List.range n).flatMap fun i => (List.range n).map fun j => ((X j * sx, Y i * sy), 2 * F i j)) := by
  unfold scanMap
  have e : ((List.range n).map fun i => (List.range n).map fun j => F i j).map (fun r => r.map (2 * ·)) =
      (List.range n).map fun i => (List.range n).map fun j => 2 * F i j := by
    rw [List.map_map]
    apply List.map_congr_left
    intro i _
    show ((List.range n).map fun j => F i j).map (2 * ·) = _
    rw [List.map_map]
    rfl
  rw [e, List.map_map, List.map_map, mesh_at]
  rfl

/-- C85, the part that holds of two-dimensional scans: for a likelihood that does not change when the two parameters exchange their places on
the grid, every point of the map has twice its own likelihood.  (Missing: all others, see `c85_map_violated`.) -/
theorem c85_map_partial {V : Type} [Field V] (sx sy : V) (n : Nat) (X Y : Nat → V) (F : Nat → Nat → V) (hF : ∀ i j, F i j = F j i) :
    ∃ points, scanMap sx sy ((List.range n).map X) ((List.range n).map Y) ((List.range n).map fun i => (List.range n).map fun j => F i j) =
        .ok points ∧
      (∀ i < n, ∀ j < n, ((X i * sx, Y j * sy), 2 * F i j) ∈ points) ∧
      ∀ q ∈ points, ∃ i < n, ∃ j < n, q = ((X i * sx, Y j * sy), 2 * F i j) := by
  refine ⟨_, map_drawn sx sy n X Y F, ?_, ?_⟩
  · intro i hi j hj
    rw [List.mem_flatMap]
    refine ⟨j, List.mem_range.2 hj, List.mem_map.2 ⟨i, List.mem_range.2 hi, ?_⟩⟩
    rw [hF j i]
  · intro q hq
    rw [List.mem_flatMap] at hq
    obtain ⟨i, hi, hq⟩ := hq
    obtain ⟨j, hj, rfl⟩ := List.mem_map.1 hq
    exact ⟨j, List.mem_range.1 hj, i, List.mem_range.1 hi, by rw [hF i j]⟩

/-- C85 fails for two-dimensional scans: the matrix of the scan has the first parameter along its rows, the plot puts the rows along the vertical
axis.  Every point is drawn with the likelihood of the point with the steps of the two parameters exchanged, so that any scan that is not
symmetric is shown wrong (and not in line with the ellipse). -/
theorem c85_map_violated {V : Type} [Field V] [NeZero (2 : V)] (sx sy : V) (hsx : sx ≠ 0) (hsy : sy ≠ 0) (n : Nat) (X Y : Nat → V)
    (hX : ∀ i j, X i = X j → i = j) (hY : ∀ i j, Y i = Y j → i = j) (F : Nat → Nat → V) (i j : Nat) (hi : i < n) (hj : j < n)
    (hne : F i j ≠ F j i) :
    ∃ points, scanMap sx sy ((List.range n).map X) ((List.range n).map Y) ((List.range n).map fun i => (List.range n).map fun j => F i j) =
        .ok points ∧
      ((X i * sx, Y j * sy), 2 * F j i) ∈ points ∧ ((X i * sx, Y j * sy), 2 * F i j) ∉ points := by
  refine ⟨_, map_drawn sx sy n X Y F, ?_, ?_⟩
  · rw [List.mem_flatMap]
    exact ⟨j, List.mem_range.2 hj, List.mem_map.2 ⟨i, List.mem_range.2 hi, rfl⟩⟩
  · intro hq
    rw [List.mem_flatMap] at hq
    obtain ⟨i', hi', hq⟩ := hq
    obtain ⟨j', hj', he⟩ := List.mem_map.1 hq
    rw [Prod.mk.injEq, Prod.mk.injEq] at he
    have h1 := hX _ _ (mul_right_cancel₀ hsx he.1.1)
    have h2 := hY _ _ (mul_right_cancel₀ hsy he.1.2)
    subst h1 h2
    exact hne (mul_left_cancel₀ (NeZero.ne (2 : V)) he.2).symm

/-- C85.  Scans with different numbers of points of the two parameters are refused. -/
theorem c85_map_refused {V : Type} [Field V] (sx sy : V) (x y : List V) (f : V → V → V) (h : x.length ≠ y.length) :
    scanMap sx sy x y (x.map fun u => y.map fun v => f u v) = .error .type := by
  unfold scanMap mesh
  rw [if_neg]
  rintro ⟨h1, -⟩
  exact h (by simpa using h1)

/-! ## cases -/

/-- a case of `c85_scan`: the point at 3 is not finite -/
example : scanPoints (fun ks : List ℚ => (List.range ks.length).reverse) [2, 3, 1] [some 5, none, some 7] = .ok [(1, 14), (2, 10)] := by
  decide +kernel

/-- a case of `c85_ellipse` -/
example : (0 : ℝ) < 2 ∧ (0 : ℝ) < 2 * 3 - 1 ^ 2 := by norm_num

/-- a case of `c85_map_violated` -/
example : scanMap (1 : ℚ) 1 [0, 1] [5, 6] [[0, 1], [2, 0]] = .ok [((0, 5), 0), ((1, 5), 2), ((0, 6), 4), ((1, 6), 0)] := by decide +kernel

end Verif.ScanPlot
