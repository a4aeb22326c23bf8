import Verif.Model.ExpectedScan
import Verif.Props.ContourEval
import Verif.Props.Limits

/-
C95: expected limits from the likelihood.
-/

namespace Verif.ExpectedScan

open Verif Verif.Scans

/-! ### Specification -/

namespace Spec

/-- the points of the likelihood at the level: twice the likelihood is `q` above its value at the fitted point; frozen parameters keep their values -/
def contour (nll : Vec ℝ → ℝ) (s : Sess ℝ) (q : ℝ) : Set (Vec ℝ) :=
  {y | 2 * (nll y - nll s.x) = q ∧ ∀ k ∈ s.fr.frozenIndices, y k = s.x k}

/-- the quantity for which the limit is asked: a parameter or the observable of a mapping -/
def quantity (obs : Option (Vec ℝ → ℝ)) (idx : Nat) (y : Vec ℝ) : ℝ := match obs with
  | none => y idx
  | some f => f y

/-- the minimiser succeeds: the solution is on the contour and nothing on the contour is larger (the objective handed to it is minus the quantity,
up to a constant: fitter.py:2651-2676) -/
def Solves (nll : Vec ℝ → ℝ) (obs : Option (Vec ℝ → ℝ)) (s : Sess ℝ) (idx : Nat) (q : ℝ) (r : Contour ℝ) : Prop :=
  ∃ left sol, r = .success left sol ∧ sol ∈ contour nll s q ∧ ∀ y ∈ contour nll s q, quantity obs idx y ≤ quantity obs idx sol

/-- the level of the Asimov likelihood at which a strength is excluded at level `clS` in the quantile `clB` of experiments without signal: the square of the distance
of the two quantiles -/
def level (ppf : ℝ → ℝ) (clS clB : ℝ) : ℝ := (ppf clB - ppf (clS * clB)) ^ 2

end Spec

/-! ### The table -/

section
variable (ppf : ℝ → ℝ) (opt : ℝ → Nat → Vec ℝ → Contour ℝ) (obs : Option (Vec ℝ → ℝ)) (dx : ℝ → Nat → List Nat → Vec ℝ)

/-- one limit: the scan with the number `c` -/
def Cell (key : String) (s : Sess ℝ) (clS clB : ℝ) (c : Nat) (v : Option ℝ) : Prop :=
  ∃ p, contourScan (opt (Spec.level ppf clS clB)) obs (dx (Spec.level ppf clS clB)) key [1] c s = (s, .ok [(v, p)])

theorem quantiles_spec (key : String) (clS : ℝ) (s : Sess ℝ) (clbs : List ℝ) :
    ∀ c s' vs, quantiles ppf opt obs dx key clS clbs c s = (s', .ok vs) → s' = s ∧ vs.length = clbs.length ∧
      ∀ (k : Nat) (clB : ℝ), clbs[k]? = some clB → ∃ v, vs[k]? = some v ∧ Cell ppf opt obs dx key s clS clB (c + k) v := by
  induction clbs with
  | nil =>
    intro c s' vs h
    cases h
    exact ⟨rfl, rfl, fun k clB hk => by simp at hk⟩
  | cons clB clbs ih =>
    intro c s' vs h
    unfold quantiles at h
    cases hc : contourScan (opt (qmuA ppf clS clB)) obs (dx (qmuA ppf clS clB)) key [1] c s with
    | mk s1 r1 =>
    rw [hc] at h
    cases r1 with
    | error e => cases h
    | ok r =>
      have hs : s1 = s := c41_contour _ _ _ _ _ _ _ _ _ hc
      subst hs
      dsimp only at h
      cases hi : item r with
      | error e => rw [hi] at h; cases h
      | ok v =>
      rw [hi] at h
      dsimp only at h
      cases hl : quantiles ppf opt obs dx key clS clbs (c + 1) s1 with
      | mk s2 r2 =>
      rw [hl] at h
      cases r2 with
      | error e => cases h
      | ok vs' =>
        cases h
        obtain ⟨i1, i2, i3⟩ := ih _ _ _ hl
        refine ⟨i1, by simp [i2], ?_⟩
        intro k clB' hk
        cases k with
        | zero =>
          cases hk
          refine ⟨v, rfl, ?_⟩
          match r, hi with
          | [w], hi =>
            cases hi
            exact ⟨w.2, hc⟩
        | succ k =>
          obtain ⟨v', g1, g2⟩ := i3 k clB' hk
          refine ⟨v', g1, ?_⟩
          rw [show c + (k + 1) = c + 1 + k by ring]
          exact g2

theorem levels_spec (key : String) (clbs : List ℝ) (s : Sess ℝ) (clss : List ℝ) :
    ∀ c s' rs, levels ppf opt obs dx key clbs clss c s = (s', .ok rs) → s' = s ∧ rs.length = clss.length ∧
      ∀ (j : Nat) (clS : ℝ), clss[j]? = some clS → ∃ row : List (Option ℝ), rs[j]? = some row ∧ row.length = clbs.length ∧
        ∀ (k : Nat) (clB : ℝ), clbs[k]? = some clB → ∃ v, row[k]? = some v ∧ Cell ppf opt obs dx key s clS clB (c + (j * clbs.length + k)) v := by
  induction clss with
  | nil =>
    intro c s' vs h
    cases h
    exact ⟨rfl, rfl, fun k clB hk => by simp at hk⟩
  | cons clS clss ih =>
    intro c s' rs h
    unfold levels at h
    cases hq : quantiles ppf opt obs dx key clS clbs c s with
    | mk s1 r1 =>
    rw [hq] at h
    cases r1 with
    | error e => cases h
    | ok r =>
      obtain ⟨hs, q2, q3⟩ := quantiles_spec ppf opt obs dx key clS s clbs _ _ _ hq
      subst hs
      dsimp only at h
      cases hl : levels ppf opt obs dx key clbs clss (c + clbs.length) s1 with
      | mk s2 r2 =>
      rw [hl] at h
      cases r2 with
      | error e => cases h
      | ok rs' =>
        cases h
        obtain ⟨i1, i2, i3⟩ := ih _ _ _ hl
        refine ⟨i1, by simp [i2], ?_⟩
        intro j clS' hj
        cases j with
        | zero =>
          cases hj
          refine ⟨r, rfl, q2, fun k clB hk => ?_⟩
          rw [show c + (0 * clbs.length + k) = c + k by ring]
          exact q3 k clB hk
        | succ j =>
          obtain ⟨row, g1, g2, g3⟩ := i3 j clS' hj
          refine ⟨row, g1, g2, fun k clB hk => ?_⟩
          rw [show c + ((j + 1) * clbs.length + k) = c + clbs.length + (j * clbs.length + k) by ring]
          exact g3 k clB hk

/-- C95.  A run that ends has one number for every limit, level and quantile, from a scan of its own at the level of that cell, started from the fitted values; the fitter is
left as it was. -/
theorem c95_table (clss clbs : List ℝ) (s : Sess ℝ) (keys : List String) :
    ∀ c s' rs, limitsNll ppf opt obs dx clss clbs keys c s = (s', .ok rs) → s' = s ∧ rs.length = keys.length ∧
      ∀ (i : Nat) (key : String), keys[i]? = some key → (obs = none → key ∈ s.fr.parms) ∧ ∃ table : List (List (Option ℝ)), rs[i]? = some table ∧
        table.length = clss.length ∧ ∀ (j : Nat) (clS : ℝ), clss[j]? = some clS → ∃ row : List (Option ℝ), table[j]? = some row ∧ row.length = clbs.length ∧
          ∀ (k : Nat) (clB : ℝ), clbs[k]? = some clB → ∃ v p, row[k]? = some v ∧
            contourScan (opt (Spec.level ppf clS clB)) obs (dx (Spec.level ppf clS clB)) key [1]
              (c + (i * (clss.length * clbs.length) + (j * clbs.length + k))) s = (s, .ok [(v, p)]) := by
  induction keys with
  | nil =>
    intro c s' vs h
    cases h
    exact ⟨rfl, rfl, fun k clB hk => by simp at hk⟩
  | cons key keys ih =>
    intro c s' rs h
    unfold limitsNll at h
    split_ifs at h with hk
    · cases h
    cases hq : levels ppf opt obs dx key clbs clss c s with
    | mk s1 r1 =>
    rw [hq] at h
    cases r1 with
    | error e => cases h
    | ok r =>
      obtain ⟨hs, q2, q3⟩ := levels_spec ppf opt obs dx key clbs s clss _ _ _ hq
      subst hs
      dsimp only at h
      cases hl : limitsNll ppf opt obs dx clss clbs keys (c + clss.length * clbs.length) s1 with
      | mk s2 r2 =>
      rw [hl] at h
      cases r2 with
      | error e => cases h
      | ok rs' =>
        cases h
        obtain ⟨i1, i2, i3⟩ := ih _ _ _ hl
        refine ⟨i1, by simp [i2], ?_⟩
        intro i key' hi
        cases i with
        | zero =>
          cases hi
          refine ⟨fun ho => ?_, r, rfl, q2, fun j clS hj => ?_⟩
          · by_contra hn
            exact hk ⟨by rw [ho]; rfl, hn⟩
          · obtain ⟨row, g1, g2, g3⟩ := q3 j clS hj
            refine ⟨row, g1, g2, fun k clB hkk => ?_⟩
            obtain ⟨v, e1, p, e2⟩ := g3 k clB hkk
            refine ⟨v, p, e1, ?_⟩
            rw [show c + (0 * (clss.length * clbs.length) + (j * clbs.length + k)) = c + (j * clbs.length + k) by ring]
            exact e2
        | succ i =>
          obtain ⟨g0, table, g1, g2, g3⟩ := i3 i key' hi
          refine ⟨g0, table, g1, g2, fun j clS hj => ?_⟩
          obtain ⟨row, e1, e2, e3⟩ := g3 j clS hj
          refine ⟨row, e1, e2, fun k clB hkk => ?_⟩
          rw [show c + ((i + 1) * (clss.length * clbs.length) + (j * clbs.length + k)) =
            c + clss.length * clbs.length + (i * (clss.length * clbs.length) + (j * clbs.length + k)) by ring]
          exact e3 k clB hkk

end

/-- C95.  A name that is no parameter is refused if there is no mapping. -/
theorem c95_unknown (ppf : ℝ → ℝ) (opt : ℝ → Nat → Vec ℝ → Contour ℝ) (dx : ℝ → Nat → List Nat → Vec ℝ) (clss clbs : List ℝ) (key : String) (keys : List String)
    (c : Nat) (s : Sess ℝ) (h : key ∉ s.fr.parms) : limitsNll ppf opt none dx clss clbs (key :: keys) c s = (s, .error .runtime) := by
  unfold limitsNll
  rw [if_pos ⟨rfl, h⟩]

/-- C95 does not hold for the name of a limit on a mapping: the observable does not depend on it, but a name that is no parameter ends the run with an `IndexError`. -/
theorem c95_name_violated (ppf : ℝ → ℝ) (opt : ℝ → Nat → Vec ℝ → Contour ℝ) (f : Vec ℝ → ℝ) (dx : ℝ → Nat → List Nat → Vec ℝ) (clS clB : ℝ) (clss clbs : List ℝ)
    (key : String) (keys : List String) (c : Nat) (s : Sess ℝ) (h : key ∉ s.fr.parms) :
    limitsNll ppf opt (some f) dx (clS :: clss) (clB :: clbs) (key :: keys) c s = (s, .error .index) := by
  have hf : s.fr.parms.findIdx? (· == key) = none := by
    rw [List.findIdx?_eq_none_iff]
    intro x hx
    rw [beq_eq_false_iff_ne]
    rintro rfl
    exact h hx
  unfold limitsNll
  rw [if_neg (by simp)]
  unfold levels quantiles contourScan paramIdx
  rw [hf]

/-! ### The numbers -/

section
variable {nll : Vec ℝ → ℝ} {opt : Nat → Vec ℝ → Contour ℝ} {dx : Nat → List Nat → Vec ℝ} {key : String} {c : Nat} {s : Sess ℝ} {idx : Nat} {q : ℝ} {v : Option ℝ}
  {p : Option (Vec ℝ)}

theorem scan_value {obs : Option (Vec ℝ → ℝ)} (hidx : s.fr.parms.findIdx? (· == key) = some idx)
    (hs : Spec.Solves nll obs s idx q (opt c (fun k => s.x k + 1 * dx idx s.fr.frozenIndices k)))
    (h : contourScan opt obs dx key [1] c s = (s, .ok [(v, p)])) :
    ∃ sol, v = some (match obs with | none => sol idx - s.x idx | some f => f sol) ∧ sol ∈ Spec.contour nll s q ∧
      ∀ y ∈ Spec.contour nll s q, Spec.quantity obs idx y ≤ Spec.quantity obs idx sol := by
  obtain ⟨left, sol, ho, h1, h2⟩ := hs
  refine ⟨sol, ?_, h1, h2⟩
  unfold contourScan paramIdx at h
  rw [hidx] at h
  simp only [contourLoop, contourSide, ho] at h
  cases h
  cases obs <;> rfl

/-- C95.  With a mapping, if the minimiser succeeds, the limit is the largest value of the observable on the contour. -/
theorem c95_mapping {f : Vec ℝ → ℝ} (hidx : s.fr.parms.findIdx? (· == key) = some idx)
    (hs : Spec.Solves nll (some f) s idx q (opt c (fun k => s.x k + 1 * dx idx s.fr.frozenIndices k)))
    (h : contourScan opt (some f) dx key [1] c s = (s, .ok [(v, p)])) :
    ∃ lim, v = some lim ∧ IsGreatest (f '' Spec.contour nll s q) lim := by
  obtain ⟨sol, hv, h1, h2⟩ := scan_value hidx hs h
  refine ⟨f sol, hv, ⟨sol, h1, rfl⟩, ?_⟩
  rintro _ ⟨y, hy, rfl⟩
  exact h2 y hy

/-- C95.  For a parameter, if the minimiser succeeds, the number is the largest distance from the fitted value on the contour.  It is the limit if the fitted value
is zero (missing: other fitted values, see `c95_parameter_violated`). -/
theorem c95_parameter_partial (hidx : s.fr.parms.findIdx? (· == key) = some idx)
    (hs : Spec.Solves nll none s idx q (opt c (fun k => s.x k + 1 * dx idx s.fr.frozenIndices k)))
    (h : contourScan opt none dx key [1] c s = (s, .ok [(v, p)])) :
    ∃ d, v = some d ∧ IsGreatest ((fun y => y idx) '' Spec.contour nll s q) (s.x idx + d) ∧
      (s.x idx = 0 → IsGreatest ((fun y => y idx) '' Spec.contour nll s q) d) := by
  obtain ⟨sol, hv, h1, h2⟩ := scan_value hidx hs h
  have hg : IsGreatest ((fun y => y idx) '' Spec.contour nll s q) (s.x idx + (sol idx - s.x idx)) := by
    rw [add_sub_cancel]
    refine ⟨⟨sol, h1, rfl⟩, ?_⟩
    rintro _ ⟨y, hy, rfl⟩
    exact h2 y hy
  refine ⟨sol idx - s.x idx, hv, hg, fun h0 => ?_⟩
  rw [h0, zero_add] at hg
  rw [h0]
  exact hg

/-- C95 does not hold for a parameter whose fitted value is not zero: what is stored as the limit is not the largest value on the contour. -/
theorem c95_parameter_violated (hidx : s.fr.parms.findIdx? (· == key) = some idx)
    (hs : Spec.Solves nll none s idx q (opt c (fun k => s.x k + 1 * dx idx s.fr.frozenIndices k)))
    (h : contourScan opt none dx key [1] c s = (s, .ok [(v, p)])) (h0 : s.x idx ≠ 0) :
    ¬ ∃ lim, v = some lim ∧ IsGreatest ((fun y => y idx) '' Spec.contour nll s q) lim := by
  rintro ⟨lim, hl, hg⟩
  obtain ⟨d, hd, hg', _⟩ := c95_parameter_partial hidx hs h
  rw [hl] at hd
  cases hd
  have := hg.unique hg'
  exact h0 (by linarith)

/-- C95 does not hold for a signal strength that is stored as its square root (the default) unless the fitted root is small: the largest strength on the contour is the square
of the largest root, and no number that the scan can return for a root above 1/4 (the default root is 1) is that square. -/
theorem c95_strength_violated (hidx : s.fr.parms.findIdx? (· == key) = some idx)
    (hs : Spec.Solves nll none s idx q (opt c (fun k => s.x k + 1 * dx idx s.fr.frozenIndices k)))
    (h : contourScan opt none dx key [1] c s = (s, .ok [(v, p)])) (h0 : 1 / 4 < s.x idx) :
    ¬ ∃ lim, v = some lim ∧ IsGreatest ((fun y => y idx ^ 2) '' Spec.contour nll s q) lim := by
  rintro ⟨lim, hl, hg⟩
  obtain ⟨d, hd, ⟨⟨y, hy, hyd⟩, _⟩, _⟩ := c95_parameter_partial hidx hs h
  rw [hl] at hd
  cases hd
  have h1 := hg.2 ⟨y, hy, rfl⟩
  dsimp only at h1 hyd
  rw [hyd] at h1
  nlinarith [sq_nonneg (lim + s.x idx - 1 / 2)]

/-- C95.  A search that fails gives not-a-number. -/
theorem c95_failed (obs : Option (Vec ℝ → ℝ)) (hidx : s.fr.parms.findIdx? (· == key) = some idx) (left : Vec ℝ)
    (ho : opt c (fun k => s.x k + 1 * dx idx s.fr.frozenIndices k) = .failure left) :
    contourScan opt obs dx key [1] c s = (s, .ok [(none, none)]) := by
  unfold contourScan paramIdx
  rw [hidx]
  simp only [contourLoop, contourSide, ho]

end

/-! ### Gaussian likelihoods -/

section
open Verif.Impacts Verif.Cov

variable {n : ℕ} {parms : Fin n → String} {frozen : List String} {prev : Mat n} {quad : Quad n} {s : Sess ℝ} {grad : Cov.Vec n} {idx : Fin n} {ppf : ℝ → ℝ} {clS clB : ℝ}
  {opt : Nat → Scans.Vec ℝ → Contour ℝ} {dx : Nat → List Nat → Scans.Vec ℝ} {key : String} {c : Nat} {v : Option ℝ} {p : Option (Scans.Vec ℝ)}

/-- C95.  For a quadratic likelihood at its minimum the number is the Gaussian limit of the same parameter, level and quantile minus the fitted value, so that the two modes agree
if the fitted value is zero (missing: other fitted values, see `c95_gaussian_violated`). -/
theorem c95_gaussian_partial (hs : quad.H.IsSymm) (hpos : Cov.Spec.posOnFloating (fun i => parms i ∈ frozen) quad.H)
    (hmin : ∀ i, parms i ∉ frozen → (quad.g + quad.H.mulVec (fun i => s.x i)) i = 0) (hfree : parms idx ∉ frozen)
    (hfr : ∀ k, k ∈ s.fr.frozenIndices ↔ ∃ i : Fin n, (i : ℕ) = k ∧ parms i ∈ frozen) (hidx : s.fr.parms.findIdx? (· == key) = some (idx : ℕ))
    (hsol : Spec.Solves (fun y => quad.val fun i => y i) none s idx (Spec.level ppf clS clB) (opt c (fun k => s.x k + 1 * dx idx s.fr.frozenIndices k)))
    (h : contourScan opt none dx key [1] c s = (s, .ok [(v, p)])) :
    ∃ edm cov, fitterEdmvalCov parms frozen prev grad quad.H = .ok (edm, cov) ∧
      v = some (Limits.expectedLimit ppf (s.x idx) (Real.sqrt (cov idx idx)) clS clB - s.x idx) ∧
      (s.x idx = 0 → v = some (Limits.expectedLimit ppf (s.x idx) (Real.sqrt (cov idx idx)) clS clB)) := by
  obtain ⟨edm, cov, hc, hg, _⟩ := ContourEval.c90_gaussian parms frozen prev quad hs hpos (fun i => s.x i) hmin grad idx hfree
    (Real.sqrt (Spec.level ppf clS clB)) (Real.sqrt_nonneg _)
  have hq : Real.sqrt (Spec.level ppf clS clB) ^ 2 = Spec.level ppf clS clB := Real.sq_sqrt (sq_nonneg _)
  rw [hq] at hg
  obtain ⟨d, hv, hd, _⟩ := c95_parameter_partial hidx hsol h
  have hset : IsGreatest {d | ∃ z : Cov.Vec n, (∀ i, parms i ∈ frozen → z i = s.x i) ∧
      2 * (quad.val z - quad.val fun i => s.x i) = Spec.level ppf clS clB ∧ d = z idx - s.x idx} d := by
    constructor
    · obtain ⟨y, ⟨hy1, hy2⟩, hy⟩ := hd.1
      refine ⟨fun i => y i, fun i hi => hy2 i ((hfr i).2 ⟨i, rfl, hi⟩), hy1, ?_⟩
      dsimp only at hy ⊢
      linarith
    · rintro _ ⟨z, hz, hl, rfl⟩
      have := hd.2 ⟨fun k => if hk : k < n then z ⟨k, hk⟩ else s.x k, ⟨?_, ?_⟩, rfl⟩
      · simp only [Fin.is_lt, dite_true, Fin.eta] at this
        linarith
      · simpa only [Fin.is_lt, dite_true, Fin.eta] using hl
      · intro k hk
        obtain ⟨i, rfl, hi⟩ := (hfr k).1 hk
        simpa only [Fin.is_lt, dite_true, Fin.eta] using hz i hi
  have he := hset.unique hg
  have hl : Limits.expectedLimit ppf (s.x idx) (Real.sqrt (cov idx idx)) clS clB - s.x idx = d := by
    rw [he]
    show s.x idx + Real.sqrt (cov idx idx) * Real.sqrt (Spec.level ppf clS clB) - s.x idx = _
    ring
  refine ⟨edm, cov, hc, by rw [hl, hv], fun h0 => ?_⟩
  rw [hv, ← hl, h0, sub_zero]

/-- C95 does not hold for a parameter whose fitted value is not zero: even for a quadratic likelihood the two modes store different limits. -/
theorem c95_gaussian_violated (hs : quad.H.IsSymm) (hpos : Cov.Spec.posOnFloating (fun i => parms i ∈ frozen) quad.H)
    (hmin : ∀ i, parms i ∉ frozen → (quad.g + quad.H.mulVec (fun i => s.x i)) i = 0) (hfree : parms idx ∉ frozen)
    (hfr : ∀ k, k ∈ s.fr.frozenIndices ↔ ∃ i : Fin n, (i : ℕ) = k ∧ parms i ∈ frozen) (hidx : s.fr.parms.findIdx? (· == key) = some (idx : ℕ))
    (hsol : Spec.Solves (fun y => quad.val fun i => y i) none s idx (Spec.level ppf clS clB) (opt c (fun k => s.x k + 1 * dx idx s.fr.frozenIndices k)))
    (h : contourScan opt none dx key [1] c s = (s, .ok [(v, p)])) (h0 : s.x idx ≠ 0) :
    ∃ edm cov, fitterEdmvalCov parms frozen prev grad quad.H = .ok (edm, cov) ∧
      v ≠ some (Limits.expectedLimit ppf (s.x idx) (Real.sqrt (cov idx idx)) clS clB) := by
  obtain ⟨edm, cov, hc, hv, _⟩ := c95_gaussian_partial (prev := prev) (grad := grad) hs hpos hmin hfree hfr hidx hsol h
  refine ⟨edm, cov, hc, fun he => h0 ?_⟩
  rw [hv] at he
  have := Option.some.inj he
  linarith

end

/-! ### Examples -/

namespace Ex95

/-- one parameter, fitted at 1; the likelihood is `(x - 1)² / 2` -/
def sess : Sess ℝ := { x := fun _ => 1, x0 := fun _ => 0, fr := ⟨["mu"], [], [false], [], [0]⟩ }

theorem pos : sess.fr.parms.findIdx? (· == "mu") = some 0 := rfl

noncomputable def nll (y : Vec ℝ) : ℝ := (y 0 - 1) ^ 2 / 2

/-- a minimiser that finds the point `1 + √q` -/
noncomputable def opt (q : ℝ) (_ : Nat) (_ : Vec ℝ) : Contour ℝ := .success (fun _ => 7) (fun _ => 1 + Real.sqrt q)

theorem solves {q : ℝ} (hq : 0 ≤ q) (c : Nat) (y : Vec ℝ) : Spec.Solves nll none sess 0 q (opt q c y) := by
  refine ⟨_, _, rfl, ⟨?_, fun k hk => absurd hk (by simp [sess])⟩, ?_⟩
  · have := Real.sq_sqrt hq
    simp only [nll, sess]
    ring_nf
    exact this
  · rintro z ⟨hz, _⟩
    simp only [nll, sess] at hz
    simp only [Spec.quantity]
    have h1 : (z 0 - 1) ^ 2 = q := by linarith
    have := Real.le_sqrt_of_sq_le h1.le
    linarith

/-- two levels, three quantiles: every cell is filled -/
example (ppf : ℝ → ℝ) : ∃ rs, limitsNll ppf opt none (fun _ _ _ _ => 0) [1 / 20, 1 / 10] [1 / 40, 1 / 2, 39 / 40] ["mu"] 0 sess = (sess, .ok rs) := ⟨_, rfl⟩

/-- the number is `√q` although the largest value on the contour is `1 + √q` -/
example (q : ℝ) (hq : 0 ≤ q) : ∃ v p, contourScan (opt q) none (fun _ _ _ => 0) "mu" [1] 0 sess = (sess, .ok [(v, p)]) ∧
    ¬ ∃ lim, v = some lim ∧ IsGreatest ((fun y => y 0) '' Spec.contour nll sess q) lim :=
  ⟨_, _, rfl, c95_parameter_violated (c := 0) (dx := fun _ _ _ => 0) pos (solves hq _ _) rfl (by norm_num [sess])⟩

/-- the strength `mu²` -/
example (q : ℝ) (hq : 0 ≤ q) : ∃ v p, contourScan (opt q) none (fun _ _ _ => 0) "mu" [1] 0 sess = (sess, .ok [(v, p)]) ∧
    ¬ ∃ lim, v = some lim ∧ IsGreatest ((fun y => y 0 ^ 2) '' Spec.contour nll sess q) lim :=
  ⟨_, _, rfl, c95_strength_violated (c := 0) (dx := fun _ _ _ => 0) pos (solves hq _ _) rfl (by norm_num [sess])⟩

/-- an observable of the same fit: three times the parameter -/
example (q : ℝ) (hq : 0 ≤ q) : ∃ v p, contourScan (opt q) (some fun y => 3 * y 0) (fun _ _ _ => 0) "mu" [1] 0 sess = (sess, .ok [(v, p)]) ∧
    ∃ lim, v = some lim ∧ IsGreatest ((fun y => 3 * y 0) '' Spec.contour nll sess q) lim := by
  refine ⟨_, _, rfl, c95_mapping (opt := opt q) (c := 0) (dx := fun _ _ _ => 0) pos ?_ rfl⟩
  obtain ⟨left, sol, h1, h2, h3⟩ := solves hq 0 (fun _ => 0)
  refine ⟨left, sol, h1, h2, fun y hy => ?_⟩
  have := h3 y hy
  simp only [Spec.quantity] at this ⊢
  linarith

/-- the same likelihood as a quadratic function -/
noncomputable def quad : Cov.Quad 1 := ⟨1 / 2, fun _ => -1, 1⟩

theorem quad_val (y : Cov.Vec 1) : quad.val y = (y 0 - 1) ^ 2 / 2 := by
  simp [Cov.Quad.val, quad, dotProduct]
  ring

/-- 1 + √q in the mode `gaussian`, √q in the mode `likelihood` -/
example (ppf : ℝ → ℝ) (clS clB : ℝ) : ∃ v p, contourScan (opt (Spec.level ppf clS clB)) none (fun _ _ _ => 0) "mu" [1] 0 sess = (sess, .ok [(v, p)]) ∧
    ∃ edm cov, Cov.fitterEdmvalCov (fun _ : Fin 1 => "mu") [] 0 0 quad.H = .ok (edm, cov) ∧
      v ≠ some (Limits.expectedLimit ppf (sess.x 0) (Real.sqrt (cov 0 0)) clS clB) := by
  refine ⟨_, _, rfl, c95_gaussian_violated (parms := fun _ : Fin 1 => "mu") (frozen := []) (s := sess) (idx := 0) (key := "mu") (c := 0)
    (opt := opt (Spec.level ppf clS clB)) (dx := fun _ _ _ => 0) ?_ ?_ ?_ ?_ ?_ pos ?_ rfl (by norm_num [sess])⟩
  · exact Matrix.isSymm_one
  · intro z _ hz
    have h0 : z 0 ≠ 0 := fun h => hz (funext fun i => by rw [Subsingleton.elim i 0, h]; rfl)
    simp [quad]
    positivity
  · intro i _
    simp [quad, sess]
  · simp
  · simp [sess]
  · obtain ⟨left, sol, h1, ⟨h2, h3⟩, h4⟩ := solves (q := Spec.level ppf clS clB) (sq_nonneg _) 0 (fun k => sess.x k + 1 * 0)
    refine ⟨left, sol, h1, ⟨?_, h3⟩, ?_⟩
    · simpa only [quad_val, nll, Fin.val_zero] using h2
    · intro y hy
      refine h4 y ⟨?_, hy.2⟩
      simpa only [quad_val, nll, Fin.val_zero] using hy.1

end Ex95

end Verif.ExpectedScan
