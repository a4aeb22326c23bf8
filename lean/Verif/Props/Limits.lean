import Verif.Model.Limits
import Verif.Lemmas.Normal
import Mathlib.Tactic.Ring
import Mathlib.Tactic.Linarith
import Mathlib.Tactic.FieldSimp

/-
C56: gaussian asymptotic limits (bin/rabbit_limit.py, rabbit/asymptotic_limits.py).

Specification: a measurement of the parameter is normally distributed around its true value.  `CLs+b` is the probability of
a measurement at or below the observed one for the tested value, `CLb` the same for the background value, and the limit at
level alpha is the value where `CLs+b = alpha CLb`.
-/

namespace Verif.Limits

open Verif

namespace Spec

/-- a distribution function of a standard normal variable with its inverse -/
structure IsNormal (Phi q : ℝ → ℝ) : Prop where
  mono : StrictMono Phi
  pos : ∀ x, 0 < Phi x
  lt_one : ∀ x, Phi x < 1
  symm : ∀ x, Phi (-x) = 1 - Phi x
  inv : ∀ p, 0 < p → p < 1 → Phi (q p) = p
  ratio : ∀ s x y, 0 < s → x < y → Phi (x - s) / Phi x < Phi (y - s) / Phi y

/-- the probability of a measurement at or below `m` when the true value is `x` -/
noncomputable def below (Phi : ℝ → ℝ) (err x m : ℝ) : ℝ := Phi ((m - x) / err)

end Spec

/-- the standard normal distribution has all these properties -/
theorem c56_normal : ∃ q, Spec.IsNormal Normal.Phi q := by
  classical
  refine ⟨fun p => if h : 0 < p ∧ p < 1 then (Normal.Phi_onto h.1 h.2).choose else 0, Normal.Phi_strictMono, Normal.Phi_pos,
    Normal.Phi_lt_one, Normal.Phi_neg, ?_, fun s x y hs h => Normal.Phi_ratio hs h⟩
  intro p h0 h1
  rw [dif_pos ⟨h0, h1⟩]
  exact (Normal.Phi_onto h0 h1).choose_spec

section

variable {Phi q : ℝ → ℝ} (N : Spec.IsNormal Phi q)

include N

theorem q_lt {p p' : ℝ} (h0 : 0 < p) (h : p < p') (h1 : p' < 1) : q p < q p' := by
  rw [← N.mono.lt_iff_lt, N.inv p h0 (h.trans h1), N.inv p' (h0.trans h) h1]
  exact h

theorem q_le {p p' : ℝ} (h0 : 0 < p) (h : p ≤ p') (h1 : p' < 1) : q p ≤ q p' := by
  rw [← N.mono.le_iff_le, N.inv p h0 (h.trans_lt h1), N.inv p' (h0.trans_le h) h1]
  exact h

theorem expected_eq (xbest xerr : ℝ) {a b : ℝ} (ha : 0 < a) (ha1 : a ≤ 1) (hb : 0 < b) (hb1 : b < 1) :
    expectedLimit q xbest xerr a b = xbest + xerr * (q b - q (a * b)) := by
  unfold expectedLimit
  dsimp only
  rw [Real.sqrt_sq]
  have : a * b ≤ b := by nlinarith
  have := q_le N (mul_pos ha hb) this hb1
  linarith

/-- C56.  For the measurement at the background quantile `b`, `CLb` is `b` and the expected limit is the only value with
`CLs+b = alpha CLb`. -/
theorem c56_expected (xbest xerr a b : ℝ) (he : 0 < xerr) (ha : 0 < a) (ha1 : a ≤ 1) (hb : 0 < b) (hb1 : b < 1) :
    ∃ m, Spec.below Phi xerr xbest m = b ∧
      ∀ r, Spec.below Phi xerr r m = a * Spec.below Phi xerr xbest m ↔ r = expectedLimit q xbest xerr a b := by
  refine ⟨xbest + xerr * q b, ?_, ?_⟩
  · unfold Spec.below
    rw [add_sub_cancel_left, mul_div_cancel_left₀ _ he.ne', N.inv b hb hb1]
  · intro r
    have hab : a * b < 1 := by nlinarith
    have hCb : Spec.below Phi xerr xbest (xbest + xerr * q b) = b := by
      unfold Spec.below
      rw [add_sub_cancel_left, mul_div_cancel_left₀ _ he.ne', N.inv b hb hb1]
    rw [hCb, expected_eq N xbest xerr ha ha1 hb hb1]
    conv_lhs => rw [← N.inv (a * b) (mul_pos ha hb) hab]
    unfold Spec.below
    rw [N.mono.injective.eq_iff, div_eq_iff he.ne']
    constructor <;> intro h <;> linarith

/-- C56.  A smaller level gives a larger limit. -/
theorem c56_level (xbest xerr a a' b : ℝ) (he : 0 < xerr) (ha : 0 < a) (h : a < a') (ha1 : a' ≤ 1) (hb : 0 < b) (hb1 : b < 1) :
    expectedLimit q xbest xerr a' b < expectedLimit q xbest xerr a b := by
  rw [expected_eq N xbest xerr ha (h.le.trans ha1) hb hb1, expected_eq N xbest xerr (ha.trans h) ha1 hb hb1]
  have h1 : a * b < a' * b := mul_lt_mul_of_pos_right h hb
  have h2 : a' * b < 1 := by nlinarith
  have := q_lt N (mul_pos ha hb) h1 h2
  have := mul_lt_mul_of_pos_left this he
  linarith

/-- C56.  A larger background quantile gives a larger limit. -/
theorem c56_quantile (xbest xerr a b b' : ℝ) (he : 0 < xerr) (ha : 0 < a) (ha1 : a < 1) (hb : 0 < b) (h : b < b') (hb1 : b' < 1) :
    expectedLimit q xbest xerr a b < expectedLimit q xbest xerr a b' := by
  rw [expected_eq N xbest xerr ha ha1.le hb (h.trans hb1), expected_eq N xbest xerr ha ha1.le (hb.trans h) hb1]
  have hb' := hb.trans h
  have key : q b - q (a * b) < q b' - q (a * b') := by
    by_contra hcon
    have hs : 0 < q b' - q (a * b') := by
      have := q_lt N (mul_pos ha hb') (by nlinarith : a * b' < b') hb1
      linarith
    have hr := N.ratio (q b' - q (a * b')) (q b) (q b') hs (q_lt N hb h hb1)
    have e1 : q b' - (q b' - q (a * b')) = q (a * b') := by ring
    rw [e1, N.inv b hb (h.trans hb1), N.inv b' hb' hb1, N.inv (a * b') (mul_pos ha hb') (by nlinarith), mul_div_assoc,
      div_self hb'.ne', mul_one, div_lt_iff₀ hb] at hr
    have h2 : Phi (q (a * b)) ≤ Phi (q b - (q b' - q (a * b'))) := N.mono.monotone (by linarith)
    rw [N.inv (a * b) (mul_pos ha hb) (by nlinarith)] at h2
    linarith
  have := mul_lt_mul_of_pos_left key he
  linarith

/-- C56, all requested parameters, levels and quantiles: entry `(i, j, k)` of the output is the limit of parameter `i` at level
`j` and quantile `k`; along ordered quantiles it grows, along ordered levels it falls. -/
theorem c56_table (allowNegative : Bool) (asimov data : Fitted) (levels clbs : List ℝ) (keys : List String)
    (out : List (List (List ℝ))) (h : expectedLimits q allowNegative asimov data levels clbs keys = .ok out)
    (hl : ∀ a ∈ levels, 0 < a ∧ a < 1) (hc : ∀ b ∈ clbs, 0 < b ∧ b < 1) (hcs : clbs.Pairwise (· < ·)) :
    out.length = keys.length ∧ ∀ (i : Nat) key, keys[i]? = some key → ∃ (r : Reading) (rows : List (List ℝ)), reading allowNegative asimov data key = .ok r ∧
      out[i]? = some rows ∧ rows.length = levels.length ∧ ∀ (j : Nat) a, levels[j]? = some a → ∃ row : List ℝ, rows[j]? = some row ∧
        row = clbs.map (expectedLimit q r.xbest r.xerr a) ∧ (0 < r.xerr → row.Pairwise (· < ·)) := by
  induction keys generalizing out with
  | nil =>
    cases h
    exact ⟨rfl, fun i key hi => by simp at hi⟩
  | cons key keys ih =>
    unfold expectedLimits at h
    cases hr : reading allowNegative asimov data key with
    | error e => rw [hr] at h; exact nomatch h
    | ok r =>
      rw [hr] at h
      dsimp only at h
      cases ht : expectedLimits q allowNegative asimov data levels clbs keys with
      | error e => rw [ht] at h; exact nomatch h
      | ok rest =>
        rw [ht] at h
        cases h
        obtain ⟨h1, h2⟩ := ih rest ht
        refine ⟨by rw [List.length_cons, List.length_cons, h1], ?_⟩
        intro i k hi
        cases i with
        | succ i =>
          simp only [List.getElem?_cons_succ] at hi ⊢
          exact h2 i k hi
        | zero =>
          simp only [List.getElem?_cons_zero, Option.some.injEq] at hi
          subst hi
          refine ⟨r, _, hr, rfl, by simp, fun j a hj => ⟨_, by rw [List.getElem?_map, hj]; rfl, rfl, fun he => ?_⟩⟩
          rw [List.pairwise_map]
          have ha := hl a (List.mem_of_getElem? hj)
          refine hcs.imp_of_mem fun {b b'} hb hb' hlt => ?_
          exact c56_quantile N _ _ a b b' he ha.1 ha.2 (hc b hb).1 hlt (hc b' hb').2

/-! ## observed limits -/

/-- C56.  For a measurement at or above zero the root condition is `CLs = alpha` in the asymptotic formulae, with
`sqrt q_mu` from the data fit and `sqrt q_A` from the asimov fit. -/
theorem c56_observed (xobs xobsErr xerr a x : ℝ) (h : 0 ≤ xobs) :
    rootFn Phi xobs xobsErr xerr a x = 0 ↔
      (1 - Phi ((x - xobs) / xobsErr)) / (1 - Phi ((x - xobs) / xobsErr - x / xerr)) = a := by
  unfold rootFn qmuSqrt qASqrt
  rw [if_neg (not_lt.2 h)]
  dsimp only
  rw [N.symm, ← neg_sub (x / xerr), N.symm, sub_sub_cancel, div_eq_iff (N.pos _).ne', sub_eq_zero]

/-- C56.  With equal errors of the two fits, the root condition for a measurement at or above zero is `CLs = alpha` for the
normal measurement, and it has exactly one solution. -/
theorem c56_observed_exact (xobs err a : ℝ) (h : 0 ≤ xobs) (he : 0 < err) (ha : 0 < a) (ha1 : a < 1) :
    (∀ x, rootFn Phi xobs err err a x = 0 ↔ Spec.below Phi err x xobs / Spec.below Phi err 0 xobs = a) ∧
      ∃! x, rootFn Phi xobs err err a x = 0 := by
  have h1 : ∀ x, rootFn Phi xobs err err a x = 0 ↔ Spec.below Phi err x xobs / Spec.below Phi err 0 xobs = a := by
    intro x
    unfold rootFn qmuSqrt qASqrt Spec.below
    rw [if_neg (not_lt.2 h)]
    dsimp only
    have e1 : -((x - xobs) / err) = (xobs - x) / err := by ring
    have e2 : x / err - (x - xobs) / err = (xobs - 0) / err := by ring
    rw [e1, e2, div_eq_iff (N.pos _).ne', sub_eq_zero]
  refine ⟨h1, ?_⟩
  have hp := N.pos ((xobs - 0) / err)
  have hp1 := N.lt_one ((xobs - 0) / err)
  have hq : ∀ x, rootFn Phi xobs err err a x = 0 ↔ x = xobs - err * q (a * Phi ((xobs - 0) / err)) := by
    intro x
    rw [h1]
    unfold Spec.below
    rw [div_eq_iff hp.ne']
    conv_lhs => rw [← N.inv (a * Phi ((xobs - 0) / err)) (mul_pos ha hp) (by nlinarith)]
    rw [N.mono.injective.eq_iff, div_eq_iff he.ne']
    constructor <;> intro h <;> linarith
  exact ⟨_, (hq _).2 rfl, fun y hy => (hq y).1 hy⟩

/-- C56 does not hold for a measurement below zero: the square root of the modified statistic is not a normal variable, and
at every positive root of the function the true `CLs` is smaller than alpha, so the reported limit is too weak. -/
theorem c56_negative_violated (xobs err a x : ℝ) (h : xobs < 0) (he : 0 < err) (hx : 0 < x)
    (hroot : rootFn Phi xobs err err a x = 0) : Spec.below Phi err x xobs / Spec.below Phi err 0 xobs < a := by
  unfold rootFn qmuSqrt qASqrt at hroot
  rw [if_pos h] at hroot
  dsimp only at hroot
  set s := Real.sqrt (((x - xobs) / err) ^ 2 - (xobs / err) ^ 2) with hs
  have hlt : s < (x - xobs) / err := by
    rw [hs, Real.sqrt_lt' (div_pos (by linarith) he)]
    have : 0 < (xobs / err) ^ 2 := by
      have : xobs / err ≠ 0 := div_ne_zero h.ne he.ne'
      positivity
    linarith
  have hr := N.ratio (x / err) (xobs / err) (x / err - s) (div_pos hx he) (by
    have : (x - xobs) / err = x / err - xobs / err := by ring
    linarith)
  have e1 : xobs / err - x / err = (xobs - x) / err := by ring
  have e2 : x / err - s - x / err = -s := by ring
  have e3 : Phi (-s) / Phi (x / err - s) = a := by
    rw [div_eq_iff (N.pos _).ne']
    linarith
  rw [e1, e2, e3] at hr
  unfold Spec.below
  rwa [sub_zero]

-- such a root exists: every positive value is the root for some level between zero and one
example : ∃ a, 0 < a ∧ a < 1 ∧ rootFn Phi (-1) 1 1 a 1 = 0 := by
  refine ⟨Phi (-Real.sqrt ((((1 : ℝ) - -1) / 1) ^ 2 - (-1 / 1) ^ 2)) / Phi (1 / 1 - Real.sqrt ((((1 : ℝ) - -1) / 1) ^ 2 - (-1 / 1) ^ 2)),
    div_pos (N.pos _) (N.pos _), (div_lt_one (N.pos _)).2 (N.mono (by linarith)), ?_⟩
  unfold rootFn qmuSqrt qASqrt
  rw [if_pos (by norm_num)]
  dsimp only
  rw [div_mul_cancel₀ _ (N.pos _).ne', sub_self]

/-- C56.  The constraint of the likelihood limit is zero where `CLs` is alpha, allows exactly the values with `CLs` at least
alpha, and its lower bound never excludes anything. -/
theorem c56_constraint (a qmu qA : ℝ) (ha : 0 < a) (hq : 0 ≤ qmu) :
    (constraint Phi a qmu qA = 0 ↔ (1 - Phi qmu) / (1 - Phi (qmu - qA)) = a) ∧
      (constraint Phi a qmu qA ≤ 0 ↔ a ≤ (1 - Phi qmu) / (1 - Phi (qmu - qA))) ∧ -(1 / 2) ≤ constraint Phi a qmu qA := by
  unfold constraint
  rw [← N.symm, ← N.symm, neg_sub, N.symm qmu]
  have hp := N.pos (qA - qmu)
  have h0 : Phi 0 = 1 / 2 := by
    have := N.symm 0
    rw [neg_zero] at this
    linarith
  have h1 : Phi 0 ≤ Phi qmu := N.mono.monotone hq
  refine ⟨?_, ?_, ?_⟩
  · rw [div_eq_iff hp.ne']
    constructor <;> intro h <;> linarith
  · rw [le_div_iff₀ hp]
    constructor <;> intro h <;> linarith
  · have := mul_pos ha hp
    linarith

end

/-! ## which parameter is read -/

/-- C56.  A parameter of interest or a systematic is read at its own position: the value at the position of its name among the
parameters of interest or among the systematics, and the square root of its own variance (times the derivative of the square
for a squared parameter of interest). -/
theorem c56_reading (allowNegative : Bool) (asimov data : Fitted) (key : String) (r : Reading)
    (h : reading allowNegative asimov data key = .ok r) (hn : data.npoi ≤ data.nparams) (hsame : asimov.nparams = data.nparams)
    (hnd : data.parms.Nodup) (i : Nat) (hi : data.parms[i]? = some key) :
    (i < data.npoi → asimov.poi[i]? = some r.xbest ∧ data.poi[i]? = some r.xobs ∧ ∃ v w, asimov.covDiag[i]? = some v ∧
      data.covDiag[i]? = some w ∧ r.xerr = (if allowNegative then Real.sqrt v else 2 * Real.sqrt v * Real.sqrt r.xbest) ∧
      r.xobsErr = if allowNegative then Real.sqrt w else 2 * Real.sqrt w * Real.sqrt r.xobs) ∧
    (data.nparams ≤ i → asimov.theta[i - data.nparams]? = some r.xbest ∧ data.theta[i - data.nparams]? = some r.xobs ∧
      ∃ v w, asimov.covDiag[i]? = some v ∧ data.covDiag[i]? = some w ∧ r.xerr = Real.sqrt v ∧ r.xobsErr = Real.sqrt w) := by
  have hmem : key ∈ data.parms := List.mem_of_getElem? hi
  obtain ⟨hil, hie⟩ := List.getElem?_eq_some_iff.1 hi
  have hfirst : data.parms.idxOf key = i := by rw [← hie]; exact hnd.idxOf_getElem i hil
  have hpoi : key ∈ (data.parms.take data.nparams).take data.npoi ↔ i < data.npoi := by
    rw [List.take_take, min_eq_left hn]
    constructor
    · intro hk
      obtain ⟨j, hj, hje⟩ := List.mem_take_iff_getElem.1 hk
      have : data.parms.idxOf key = j := by rw [← hje]; exact hnd.idxOf_getElem j (by omega)
      omega
    · intro hlt
      exact List.mem_take_iff_getElem.2 ⟨i, by omega, hie⟩
  unfold reading at h
  rw [if_neg (not_not.2 hmem), hfirst] at h
  dsimp only at h
  cases hb : valueAt asimov (decide (key ∈ (data.parms.take data.nparams).take data.npoi)) i with
  | error e => rw [hb] at h; exact nomatch h
  | ok xb =>
    cases ho : valueAt data (decide (key ∈ (data.parms.take data.nparams).take data.npoi)) i with
    | error e => rw [hb, ho] at h; exact nomatch h
    | ok xo =>
      cases he : errAt asimov i with
      | error e => rw [hb, ho, he] at h; exact nomatch h
      | ok xe =>
        cases heo : errAt data i with
        | error e => rw [hb, ho, he, heo] at h; exact nomatch h
        | ok xeo =>
          rw [hb, ho, he, heo] at h
          dsimp only at h
          have herr : ∀ (f : Fitted) x, errAt f i = .ok x → ∃ v, f.covDiag[i]? = some v ∧ x = Real.sqrt v := by
            intro f x hx
            unfold errAt at hx
            cases hv : f.covDiag[i]? with
            | none => rw [hv] at hx; exact nomatch hx
            | some v => rw [hv] at hx; cases hx; exact ⟨v, rfl, rfl⟩
          obtain ⟨v, hv, rfl⟩ := herr _ _ he
          obtain ⟨w, hw, rfl⟩ := herr _ _ heo
          constructor
          · intro hlt
            have hk := hpoi.2 hlt
            have hval : ∀ (f : Fitted) x, valueAt f true i = .ok x → f.poi[i]? = some x := by
              intro f x hx
              unfold valueAt at hx
              rw [if_pos rfl] at hx
              cases hv : f.poi[i]? with
              | none => rw [hv] at hx; exact nomatch hx
              | some v => rw [hv] at hx; cases hx; rfl
            rw [decide_eq_true hk] at hb ho h
            cases allowNegative
            · rw [if_pos (by simp)] at h
              cases h
              exact ⟨hval _ _ hb, hval _ _ ho, v, w, hv, hw, rfl, rfl⟩
            · rw [if_neg (by simp)] at h
              cases h
              exact ⟨hval _ _ hb, hval _ _ ho, v, w, hv, hw, rfl, rfl⟩
          · intro hle
            have hk : key ∉ (data.parms.take data.nparams).take data.npoi := fun hk => by
              have := hpoi.1 hk
              omega
            have hval : ∀ (f : Fitted) x, f.nparams = data.nparams → valueAt f false i = .ok x → f.theta[i - data.nparams]? = some x := by
              intro f x hf hx
              unfold valueAt at hx
              rw [if_neg (by simp)] at hx
              have hcast : ((i : Int) - (f.nparams : Int)) = ((i - data.nparams : Nat) : Int) := by omega
              rw [hcast] at hx
              unfold Scans.pyIndex at hx
              split at hx
              · exact nomatch hx
              · rename_i k hkk
                split at hkk
                · cases hkk
                  rw [Int.toNat_natCast] at hx
                  cases hv : f.theta[i - data.nparams]? with
                  | none => rw [hv] at hx; exact nomatch hx
                  | some v => rw [hv] at hx; cases hx; rfl
                · rw [if_neg (by omega)] at hkk
                  exact nomatch hkk
            rw [decide_eq_false hk] at hb ho h
            rw [if_neg (by simp)] at h
            cases h
            exact ⟨hval _ _ hsame hb, hval _ _ rfl ho, v, w, hv, hw, rfl, rfl⟩

namespace Ex56

/-- a parameter of interest, another parameter of the parameter model, two systematics -/
noncomputable def fit (poi : ℝ) : Fitted := ⟨["sig", "k", "lumi", "eff"], 1, 2, [poi], [10, 20], [4, 9, 16, 25]⟩

theorem sqrt4 : Real.sqrt 4 = 2 := by rw [show (4 : ℝ) = 2 ^ 2 by norm_num]; exact Real.sqrt_sq (by norm_num)
theorem sqrt9 : Real.sqrt 9 = 3 := by rw [show (9 : ℝ) = 3 ^ 2 by norm_num]; exact Real.sqrt_sq (by norm_num)
theorem sqrt25 : Real.sqrt 25 = 5 := by rw [show (25 : ℝ) = 5 ^ 2 by norm_num]; exact Real.sqrt_sq (by norm_num)

example : reading true (fit 1) (fit 3) "sig" = .ok ⟨1, 2, 3, 2⟩ := by
  simp [reading, fit, valueAt, errAt, sqrt4, List.idxOf, List.findIdx, List.findIdx.go]

example : reading true (fit 1) (fit 3) "eff" = .ok ⟨20, 5, 20, 5⟩ := by
  simp [reading, fit, valueAt, errAt, sqrt25, Scans.pyIndex, List.idxOf, List.findIdx, List.findIdx.go]

end Ex56

/-- C56 does not hold for a squared parameter of interest whose best fit is zero (no signal in the asimov set): the error
is zero and every expected limit is zero, whatever the level and the quantile. -/
theorem c56_zero_violated (q : ℝ → ℝ) (a b : ℝ) :
    ∃ r, reading false (Ex56.fit 0) (Ex56.fit 0) "sig" = .ok r ∧ expectedLimit q r.xbest r.xerr a b = 0 := by
  refine ⟨⟨0, 2 * 2 * Real.sqrt 0, 0, 2 * 2 * Real.sqrt 0⟩, ?_, ?_⟩
  · simp [reading, Ex56.fit, valueAt, errAt, List.idxOf, List.findIdx, List.findIdx.go]
  · unfold expectedLimit
    simp

/-- C56 does not hold for a parameter of the parameter model that is not a parameter of interest: the value read is that of
a systematic counted from the end. -/
theorem c56_model_parameter_violated :
    reading true (Ex56.fit 1) (Ex56.fit 1) "k" = .ok ⟨20, 3, 20, 3⟩ := by
  simp [reading, Ex56.fit, valueAt, errAt, Ex56.sqrt9, Scans.pyIndex, List.idxOf, List.findIdx, List.findIdx.go]

end Verif.Limits
