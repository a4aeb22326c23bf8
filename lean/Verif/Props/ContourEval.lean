import Verif.Model.ContourEval
import Verif.Props.Scans
import Verif.Props.Propagation

/-!
C90: contour scans evaluate what they are asked at the point they are asked for, and report the ends of the contour.
-/

namespace Verif.ContourEval

open Verif.Scans Verif.FitParams

/-! ### Specification -/

namespace Spec

section
variable {V : Type} [Field V]

/-- what every call should return, without any memory of former calls -/
def answer (mode : Mode) (f : Nll V) (inv : List (List V)) (nllMin q : V) (idx : Nat) (x0 : V) : Call V → Ans V
  | .loss x => .vals [f.val x - (nllMin + q / 2)]
  | .grad x => .vals (f.grad x)
  | .hess x v => match mode with
    | .exact => .mat ((f.hess x).map fun r => r.map (v.headD 0 * ·))
    | .frozen => .mat (inv.map fun r => r.map (v.headD 0 * ·))
    | .hvp => .op x (v.headD 0)
    | _ => .nothing
  | .matvec x scale p => .vals ((f.hessp x p).map (scale * ·))
  | .objective sign x => .both (-(sign * (x.getD idx 0 - x0))) ((List.range x.length).map fun k => if k = idx then -sign else 0)
  | .assign _ => .nothing

end

/-- the contour: twice the likelihood is `q` above its minimum; frozen parameters keep their values -/
def contour (nll : Vec ℝ → ℝ) (nllMin q : ℝ) (frozen : Nat → Prop) (x : Vec ℝ) : Set (Vec ℝ) :=
  {y | 2 * (nll y - nllMin) = q ∧ ∀ k, frozen k → y k = x k}

/-- a minimum of the objective under the constraint -/
def Best (nll : Vec ℝ → ℝ) (nllMin q : ℝ) (frozen : Nat → Prop) (x : Vec ℝ) (idx : Nat) (sign : ℝ) (sol : Vec ℝ) : Prop :=
  nll sol - nllMin - 1 / 2 * q = 0 ∧ (∀ k, frozen k → sol k = x k) ∧
  ∀ y : Vec ℝ, nll y - nllMin - 1 / 2 * q = 0 → (∀ k, frozen k → y k = x k) → -sign * (sol idx - x idx) ≤ -sign * (y idx - x idx)

end Spec

/-! ### Calls -/

section
variable {V : Type} [Field V] [DecidableEq V]

/-- what is in the caches is right -/
def Good (f : Nll V) (nllMin q : V) (s : State V) : Prop :=
  (∀ y v g, s.lg = some (y, v, g) → v = f.val y - (nllMin + q / 2) ∧ g = f.grad y) ∧ ∀ y m, s.h = some (y, m) → m = f.hess y

omit [DecidableEq V] in
theorem val_eq (f : Nll V) (nllMin q : V) (x : List V) : f.val x - nllMin - 1 / 2 * q = f.val x - (nllMin + q / 2) := by ring

theorem good_lossGrad (f : Nll V) (nllMin q : V) (x : List V) (s : State V) (hs : Good f nllMin q s) :
    Good f nllMin q (ensureLossGrad f nllMin q x s) ∧ cached (ensureLossGrad f nllMin q x s) = (f.val x - (nllMin + q / 2), f.grad x) := by
  have hfresh : Good f nllMin q { s with x, lg := some (x, f.val x - nllMin - 1 / 2 * q, f.grad x) } := by
    refine ⟨?_, hs.2⟩
    intro y v g h
    cases h
    exact ⟨val_eq f nllMin q _, rfl⟩
  unfold ensureLossGrad
  cases hl : s.lg with
  | none => exact ⟨hfresh, by rw [← val_eq]; rfl⟩
  | some e =>
    obtain ⟨y, v, g⟩ := e
    by_cases hy : y = x
    · show Good f nllMin q (if y = x then s else _) ∧ cached (if y = x then s else _) = _
      rw [if_pos hy]
      refine ⟨hs, ?_⟩
      unfold cached
      rw [hl]
      obtain ⟨h1, h2⟩ := hs.1 y v g hl
      rw [← hy, ← h1, ← h2]
    · show Good f nllMin q (if y = x then s else _) ∧ cached (if y = x then s else _) = _
      rw [if_neg hy]
      exact ⟨hfresh, by rw [← val_eq]; rfl⟩

theorem good_hess (f : Nll V) (nllMin q : V) (x : List V) (s : State V) (hs : Good f nllMin q s) :
    Good f nllMin q (ensureHess f nllMin q x s) ∧ cachedHess (ensureHess f nllMin q x s) = f.hess x := by
  have hfresh : Good f nllMin q { x, h := some (x, f.hess x), lg := some (x, f.val x - nllMin - 1 / 2 * q, f.grad x) } := by
    refine ⟨?_, ?_⟩
    · intro y v g h
      cases h
      exact ⟨val_eq f nllMin q _, rfl⟩
    · intro y m h
      cases h
      rfl
  unfold ensureHess
  dsimp only
  cases hl : s.h with
  | none => exact ⟨hfresh, rfl⟩
  | some e =>
    obtain ⟨y, m⟩ := e
    by_cases hy : y = x
    · show Good f nllMin q (if y = x then s else _) ∧ cachedHess (if y = x then s else _) = _
      rw [if_pos hy]
      refine ⟨hs, ?_⟩
      unfold cachedHess
      rw [hl, ← hy]
      exact hs.2 y m hl
    · show Good f nllMin q (if y = x then s else _) ∧ cachedHess (if y = x then s else _) = _
      rw [if_neg hy]
      exact ⟨hfresh, rfl⟩

theorem call_spec (mode : Mode) (f : Nll V) (inv : List (List V)) (nllMin q : V) (idx : Nat) (x0 : V) (s : State V) (hs : Good f nllMin q s) (c : Call V) :
    Good f nllMin q (call mode f inv nllMin q idx x0 s c).1 ∧
      (call mode f inv nllMin q idx x0 s c).2 = Spec.answer mode f inv nllMin q idx x0 c := by
  cases c with
  | loss x =>
    obtain ⟨h1, h2⟩ := good_lossGrad f nllMin q x s hs
    refine ⟨h1, ?_⟩
    show Ans.vals [(cached _).1] = _
    rw [h2]
    rfl
  | grad x =>
    obtain ⟨h1, h2⟩ := good_lossGrad f nllMin q x s hs
    refine ⟨h1, ?_⟩
    show Ans.vals (cached _).2 = _
    rw [h2]
    rfl
  | hess x v =>
    cases mode with
    | exact =>
      obtain ⟨h1, h2⟩ := good_hess f nllMin q x s hs
      refine ⟨h1, ?_⟩
      show Ans.mat (scaleMat _ (cachedHess _)) = _
      rw [h2]
      rfl
    | hvp => exact ⟨(good_lossGrad f nllMin q x s hs).1, rfl⟩
    | frozen => exact ⟨hs, rfl⟩
    | bfgs => exact ⟨hs, rfl⟩
    | sr1 => exact ⟨hs, rfl⟩
    | unknown => exact ⟨hs, rfl⟩
  | matvec x scale p => exact ⟨hs, rfl⟩
  | objective sign x =>
    refine ⟨hs, ?_⟩
    show Ans.both (-sign * _) _ = _
    rw [neg_mul]
    rfl
  | assign x => exact ⟨hs, rfl⟩

theorem calls_spec (mode : Mode) (f : Nll V) (inv : List (List V)) (nllMin q : V) (idx : Nat) (x0 : V) (cs : List (Call V)) :
    ∀ s, Good f nllMin q s → (calls mode f inv nllMin q idx x0 s cs).2 = cs.map (Spec.answer mode f inv nllMin q idx x0) := by
  induction cs with
  | nil => exact fun s _ => rfl
  | cons c cs ih =>
    intro s hs
    obtain ⟨h1, h2⟩ := call_spec mode f inv nllMin q idx x0 s hs c
    show (call mode f inv nllMin q idx x0 s c).2 :: (calls mode f inv nllMin q idx x0 (call mode f inv nllMin q idx x0 s c).1 cs).2 = _
    rw [h2, ih _ h1]
    rfl

/-- C90.  Whatever SciPy calls in whatever order and at whatever points, on both sides of the contour, every call returns
what it would return without the caches: the likelihood relative to the contour, its gradient, its Hessian (times the
multiplier; the inverse covariance in the mode "frozen"), the displacement of the scanned parameter and its gradient, all at
the point of that call. -/
theorem c90_calls (mode : Mode) (hm : mode ≠ .unknown) (f : Nll V) (inv : List (List V)) (nllMin q : V) (idx : Nat) (x : List V) (cs : List (Call V)) :
    ∃ s, session mode f inv nllMin q idx x cs = .ok (s, cs.map (Spec.answer mode f inv nllMin q idx (x.getD idx 0))) := by
  refine ⟨(calls mode f inv nllMin q idx (x.getD idx 0) { x } cs).1, ?_⟩
  unfold session
  rw [if_neg hm, ← calls_spec mode f inv nllMin q idx (x.getD idx 0) cs { x } ⟨(fun _ _ _ h => nomatch h), (fun _ _ h => nomatch h)⟩]

/-- C90.  Another text for the mode is refused. -/
theorem c90_mode (f : Nll V) (inv : List (List V)) (nllMin q : V) (idx : Nat) (x : List V) (cs : List (Call V)) :
    session .unknown f inv nllMin q idx x cs = .error .value := rfl

end

/-! ### Intervals -/

/-- C90.  If the minimiser finds the minima under the constraint on both sides, the two values reported are the smallest
and the largest displacement of the parameter on the contour. -/
theorem c90_interval (nll : Vec ℝ → ℝ) (nllMin q : ℝ) (opt : Nat → Vec ℝ → Contour ℝ) (dx : Nat → List Nat → Vec ℝ) (param : String)
    (calls : Nat) (s : Sess ℝ) (idx : Nat) (hidx : s.fr.parms.findIdx? (· == param) = some idx) (left1 low left2 high : Vec ℝ)
    (h1 : opt calls (fun k => s.x k + -1 * dx idx s.fr.frozenIndices k) = .success left1 low)
    (h2 : opt (calls + 1) (fun k => s.x k + 1 * dx idx s.fr.frozenIndices k) = .success left2 high)
    (b1 : Spec.Best nll nllMin q (· ∈ s.fr.frozenIndices) s.x idx (-1) low) (b2 : Spec.Best nll nllMin q (· ∈ s.fr.frozenIndices) s.x idx 1 high) :
    ∃ lo hi a b, contourScan opt none dx param [-1, 1] calls s = (s, .ok [(some lo, a), (some hi, b)]) ∧
      IsLeast ((fun y => y idx - s.x idx) '' Spec.contour nll nllMin q (· ∈ s.fr.frozenIndices) s.x) lo ∧
      IsGreatest ((fun y => y idx - s.x idx) '' Spec.contour nll nllMin q (· ∈ s.fr.frozenIndices) s.x) hi := by
  refine ⟨low idx - s.x idx, high idx - s.x idx, some fun k => low k - s.x k, some fun k => high k - s.x k, ?_, ?_, ?_⟩
  · unfold contourScan paramIdx
    rw [hidx]
    simp only [contourLoop, contourSide, h1, h2]
  · refine ⟨⟨low, ⟨by linarith [b1.1], b1.2.1⟩, rfl⟩, ?_⟩
    rintro _ ⟨y, hy, rfl⟩
    have := b1.2.2 y (by linarith [hy.1]) hy.2
    dsimp only
    linarith
  · refine ⟨⟨high, ⟨by linarith [b2.1], b2.2.1⟩, rfl⟩, ?_⟩
    rintro _ ⟨y, hy, rfl⟩
    have := b2.2.2 y (by linarith [hy.1]) hy.2
    dsimp only
    linarith

/-! ### The table of the driver -/

section
variable {V : Type} [Field V]

theorem levelRows_spec (opt : V → Nat → Vec V → Contour V) (dx : V → Nat → List Nat → Vec V) (param : String) (s : Sess V) (cls : List V) :
    ∀ c s' rs, levelRows opt dx param cls c s = (s', .ok rs) → s' = s ∧ rs.length = cls.length ∧
      ∀ (j : Nat) (cl : V), cls[j]? = some cl → ∃ r, contourScan (opt (cl ^ 2)) none (dx (cl ^ 2)) param [-1, 1] (c + 2 * j) s = (s, .ok r) ∧
        rs[j]? = some (r.map (·.2)) := by
  induction cls with
  | nil =>
    intro c s' rs h
    cases h
    exact ⟨rfl, rfl, fun j cl hj => by simp at hj⟩
  | cons cl cls ih =>
    intro c s' rs h
    unfold levelRows at h
    cases hc : contourScan (opt (cl ^ 2)) none (dx (cl ^ 2)) param [-1, 1] c s with
    | mk s1 r1 =>
    rw [hc] at h
    cases r1 with
    | error e => cases h
    | ok r =>
      have hs : s1 = s := c41_contour _ _ _ _ _ _ _ _ _ hc
      subst hs
      dsimp only at h
      cases hl : levelRows opt dx param cls (c + 2) s1 with
      | mk s2 r2 =>
      rw [hl] at h
      cases r2 with
      | error e => cases h
      | ok rs' =>
        cases h
        obtain ⟨i1, i2, i3⟩ := ih _ _ _ hl
        refine ⟨i1, by simp [i2], ?_⟩
        intro j cl' hj
        cases j with
        | zero =>
          cases hj
          exact ⟨r, hc, rfl⟩
        | succ j =>
          obtain ⟨r', g1, g2⟩ := i3 j cl' hj
          refine ⟨r', ?_, g2⟩
          rw [show c + 2 * (j + 1) = c + 2 + 2 * j by ring]
          exact g1

theorem paramRows_spec (opt : V → Nat → Vec V → Contour V) (dx : V → Nat → List Nat → Vec V) (levels : List V) (s : Sess V) (ps : List String) :
    ∀ c s' rs, paramRows opt dx levels ps c s = (s', .ok rs) → s' = s ∧ rs.length = ps.length ∧
      ∀ (i : Nat) (p : String), ps[i]? = some p → ∃ row : List (List (Option (Vec V))), rs[i]? = some row ∧ row.length = levels.length ∧
        ∀ (j : Nat) (cl : V), levels[j]? = some cl →
        ∃ r, contourScan (opt (cl ^ 2)) none (dx (cl ^ 2)) p [-1, 1] (c + 2 * (i * levels.length + j)) s = (s, .ok r) ∧
          row[j]? = some (r.map (·.2)) := by
  induction ps with
  | nil =>
    intro c s' rs h
    cases h
    exact ⟨rfl, rfl, fun j cl hj => by simp at hj⟩
  | cons p ps ih =>
    intro c s' rs h
    unfold paramRows at h
    cases hc : levelRows opt dx p levels c s with
    | mk s1 r1 =>
    rw [hc] at h
    cases r1 with
    | error e => cases h
    | ok r =>
      obtain ⟨hs, hl, hr⟩ := levelRows_spec opt dx p s levels _ _ _ hc
      subst hs
      dsimp only at h
      cases hp : paramRows opt dx levels ps (c + 2 * levels.length) s1 with
      | mk s2 r2 =>
      rw [hp] at h
      cases r2 with
      | error e => cases h
      | ok rs' =>
        cases h
        obtain ⟨i1, i2, i3⟩ := ih _ _ _ hp
        refine ⟨i1, by simp [i2], ?_⟩
        intro i p' hi
        cases i with
        | zero =>
          cases hi
          refine ⟨r, rfl, hl, fun j cl hj => ?_⟩
          rw [Nat.zero_mul, Nat.zero_add]
          exact hr j cl hj
        | succ i =>
          obtain ⟨row, g1, g2, g3⟩ := i3 i p' hi
          refine ⟨row, g1, g2, fun j cl hj => ?_⟩
          rw [show c + 2 * ((i + 1) * levels.length + j) = c + 2 * levels.length + 2 * (i * levels.length + j) by ring]
          exact g3 j cl hj

/-- C90.  The table of contours has a row for every parameter asked for (for every parameter if none is named), in it an
entry for every level, and the entry of parameter and level is the scan of this parameter at twice the likelihood
difference equal to the square of this level, from the same best fit; the fit is left as it was. -/
theorem c90_table (opt : V → Nat → Vec V → Contour V) (dx : V → Nat → List Nat → Vec V) (levels : List V) (names : List String) (s s' : Sess V)
    (ps : List String) (rs : List (List (List (Option (Vec V))))) (h : contourTable opt dx levels names s = (s', .ok (ps, rs))) :
    s' = s ∧ (names ≠ [] → ps = names) ∧ (names = [] → ps = s.fr.parms) ∧ rs.length = ps.length ∧
      ∀ (i : Nat) (p : String), ps[i]? = some p → ∃ row : List (List (Option (Vec V))), rs[i]? = some row ∧ row.length = levels.length ∧
        ∀ (j : Nat) (cl : V), levels[j]? = some cl → ∃ n r, contourScan (opt (cl ^ 2)) none (dx (cl ^ 2)) p [-1, 1] n s = (s, .ok r) ∧
          row[j]? = some (r.map (·.2)) := by
  unfold contourTable at h
  dsimp only at h
  cases hp : paramRows opt dx levels (if names.isEmpty then s.fr.parms else names) 0 s with
  | mk s1 r1 =>
  rw [hp] at h
  cases r1 with
  | error e => cases h
  | ok rs' =>
    cases h
    obtain ⟨i1, i2, i3⟩ := paramRows_spec opt dx levels s _ _ _ _ hp
    refine ⟨i1, ?_, ?_, i2, ?_⟩
    · intro hn
      rw [if_neg]
      simpa using hn
    · intro hn
      rw [hn]
      rfl
    · intro i p hi
      obtain ⟨row, g1, g2, g3⟩ := i3 i p hi
      refine ⟨row, g1, g2, fun j cl hj => ?_⟩
      obtain ⟨r, hr⟩ := g3 j cl hj
      exact ⟨_, r, hr⟩

end

/-! ### Gaussian likelihoods -/

open Verif.Impacts Verif.Cov Matrix in
/-- C90.  For a quadratic likelihood at its minimum, the contour of level `cl` extends from `-cl` to `cl` standard
deviations of the scanned parameter. -/
theorem c90_gaussian {n : ℕ} (parms : Fin n → String) (frozen : List String) (prev : Mat n) (quad : Quad n)
    (hs : quad.H.IsSymm) (hpos : Cov.Spec.posOnFloating (fun i => parms i ∈ frozen) quad.H) (x : Cov.Vec n)
    (hmin : ∀ i, parms i ∉ frozen → (quad.g + quad.H.mulVec x) i = 0) (grad : Cov.Vec n) (idx : Fin n)
    (hidx : parms idx ∉ frozen) (cl : ℝ) (hcl : 0 ≤ cl) :
    ∃ edm cov, fitterEdmvalCov parms frozen prev grad quad.H = .ok (edm, cov) ∧
      IsGreatest {d | ∃ z : Cov.Vec n, (∀ i, parms i ∈ frozen → z i = x i) ∧ 2 * (quad.val z - quad.val x) = cl ^ 2 ∧ d = z idx - x idx}
        (cl * Real.sqrt (cov idx idx)) ∧
      IsLeast {d | ∃ z : Cov.Vec n, (∀ i, parms i ∈ frozen → z i = x i) ∧ 2 * (quad.val z - quad.val x) = cl ^ 2 ∧ d = z idx - x idx}
        (-(cl * Real.sqrt (cov idx idx))) := by
  have hfi : ∀ i, i ∈ (List.finRange n).filter (fun i => decide (parms i ∈ frozen)) ↔ parms i ∈ frozen := by
    intro i
    simp
  obtain ⟨edm, cov, hc, a1, a2, a3⟩ := c44_warm_start parms frozen prev quad hs hpos x hmin grad idx hidx (cl ^ 2) 1 (sq_nonneg cl) (.inl rfl) _ hfi
  obtain ⟨edm', cov', hc', b1, b2, b3⟩ := c44_warm_start parms frozen prev quad hs hpos x hmin grad idx hidx (cl ^ 2) (-1) (sq_nonneg cl) (.inr rfl) _ hfi
  rw [hc] at hc'
  cases hc'
  have hw : ∀ sign, warmStart cov idx (cl ^ 2) sign ((List.finRange n).filter (fun i => decide (parms i ∈ frozen))) x idx - x idx =
      sign * (cl * Real.sqrt (cov idx idx)) := by
    intro sign
    unfold warmStart gaussDx
    rw [if_neg, Real.sqrt_sq hcl, mul_div_assoc, Real.div_sqrt]
    · ring
    · simpa using hidx
  refine ⟨edm, cov, hc, ⟨⟨_, a1, by rw [a2]; ring, by rw [hw, one_mul]⟩, ?_⟩, ⟨⟨_, b1, by rw [b2]; ring, by rw [hw, neg_one_mul]⟩, ?_⟩⟩
  · rintro _ ⟨z, hz, hv, rfl⟩
    have := a3 z hz (by linarith)
    rw [hw] at this
    linarith
  · rintro _ ⟨z, hz, hv, rfl⟩
    have := b3 z hz (by linarith)
    rw [hw] at this
    linarith

/-! ### Examples -/

namespace Ex90

/-- the likelihood (x₀ - 1)² + x₀ x₁ + x₁² -/
def f : Nll ℚ where
  val x := (x.getD 0 0 - 1) ^ 2 + x.getD 0 0 * x.getD 1 0 + x.getD 1 0 ^ 2
  grad x := [2 * (x.getD 0 0 - 1) + x.getD 1 0, x.getD 0 0 + 2 * x.getD 1 0]
  hess _ := [[2, 1], [1, 2]]
  hessp _ p := [2 * p.getD 0 0 + p.getD 1 0, p.getD 0 0 + 2 * p.getD 1 0]

/-- the value at one point, the gradient at another, the value at the first again, the Hessian -/
example : (session .exact f [] 0 1 0 [1, 0] [.loss [3, 0], .grad [1, 1], .loss [3, 0], .hess [3, 0] [2]]).map (·.2) =
    .ok [.vals [7 / 2], .vals [1, 3], .vals [7 / 2], .mat [[4, 2], [2, 4]]] := by
  obtain ⟨s, h⟩ := c90_calls .exact (by decide) f [] 0 1 0 [1, 0] [.loss [3, 0], .grad [1, 1], .loss [3, 0], .hess [3, 0] [2]]
  rw [h]
  norm_num [Except.map, Spec.answer, f]

/-- two correlated parameters, the second frozen, contour of two standard deviations -/
example : ∃ edm cov, Cov.fitterEdmvalCov Verif.Cov.Ex.parms ["theta"] 0 0 Verif.Cov.Ex.H = .ok (edm, cov) := by
  obtain ⟨edm, cov, h, _⟩ := c90_gaussian Verif.Cov.Ex.parms ["theta"] 0 ⟨0, ![-2, 0], Verif.Cov.Ex.H⟩
    Verif.Cov.Ex.H_symm (Verif.Cov.Ex.H_pos _) ![1, 0]
    (by intro i hi; fin_cases i
        · simp [Verif.Cov.Ex.H]
        · simp [Verif.Cov.Ex.parms] at hi) 0 0 (by simp [Verif.Cov.Ex.parms]) 2 (by norm_num)
  exact ⟨edm, cov, h⟩

/-- the likelihood `x₀²/2` of one parameter, best fit at 0, `q = 4` -/
noncomputable def sess : Sess ℝ := { x := fun _ => 0, x0 := fun _ => 0, fr := ⟨["mu"], [], [false], [], [0]⟩ }

noncomputable def opt : Nat → Scans.Vec ℝ → Contour ℝ := fun n _ => .success (fun _ => 5) (fun _ => if n = 0 then -2 else 2)

theorem best (sign : ℝ) (h : sign = 1 ∨ sign = -1) :
    Spec.Best (fun y => y 0 ^ 2 / 2) 0 4 (· ∈ sess.fr.frozenIndices) sess.x 0 sign (fun _ => 2 * sign) := by
  refine ⟨?_, ?_, ?_⟩
  · rcases h with rfl | rfl <;> norm_num
  · intro k hk
    exact absurd hk (by simp [sess])
  · intro y hy _
    dsimp only [sess]
    have h1 : y 0 ^ 2 = 4 := by linarith
    rcases h with rfl | rfl <;> nlinarith [sq_nonneg (y 0 - 2), sq_nonneg (y 0 + 2)]

/-- the interval is [-2, 2] -/
example : ∃ lo hi a b, contourScan opt none (fun _ _ _ => 2) "mu" [-1, 1] 0 sess = (sess, .ok [(some lo, a), (some hi, b)]) ∧
    IsLeast ((fun y => y 0 - sess.x 0) '' Spec.contour (fun y => y 0 ^ 2 / 2) 0 4 (· ∈ sess.fr.frozenIndices) sess.x) lo ∧
    IsGreatest ((fun y => y 0 - sess.x 0) '' Spec.contour (fun y => y 0 ^ 2 / 2) 0 4 (· ∈ sess.fr.frozenIndices) sess.x) hi :=
  c90_interval (fun y => y 0 ^ 2 / 2) 0 4 opt _ "mu" 0 sess 0 (by decide) (fun _ => 5) (fun _ => 2 * -1) (fun _ => 5) (fun _ => 2 * 1)
    (by norm_num [opt]) (by norm_num [opt]) (best (-1) (.inr rfl)) (best 1 (.inl rfl))

/-- all parameters, two levels -/
example : ∃ s' rs, contourTable (fun _ => opt) (fun _ _ _ _ => 2) [1, 2] [] sess = (s', .ok (["mu"], rs)) := ⟨_, _, rfl⟩

end Ex90

end Verif.ContourEval
