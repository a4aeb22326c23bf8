import Verif.Model.LikelihoodLimit
import Verif.Lemmas.NormalDeriv
import Verif.Props.Limits
import Mathlib.Analysis.Complex.ExponentialBounds

/-
C96: observed limits from the likelihood.
-/

namespace Verif.LikelihoodLimit

open Verif

/-! ### Specification -/

namespace Spec

/-- the points with a given value of the parameter -/
def points (n idx : Nat) (mu : ℝ) : Set (List ℝ) := {x | x.length = n ∧ x[idx]? = some mu}

/-- `pf` is the likelihood with all other parameters profiled -/
def Profile (nll : List ℝ → ℝ) (n idx : Nat) (pf : ℝ → ℝ) : Prop := ∀ mu, IsLeast (nll '' points n idx mu) (pf mu)

/-- square root of the test statistic for the likelihood `l` with the minimum `ref` -/
noncomputable def root (ref l : ℝ) : ℝ := Real.sqrt (2 * (l - ref))

/-- confidence in the signal: the ratio of the probabilities of a test statistic at least as large with and without signal -/
noncomputable def cls (q qA : ℝ) : ℝ := (1 - Normal.Phi q) / (1 - Normal.Phi (q - qA))

/-- the value that was given as minimum is not above the likelihood -/
def Below (f : Like) : Prop := ∀ x : List ℝ, x.length = f.n → f.ref ≤ f.nll x

/-- what the search should do: if it ends, the result satisfies the constraint, and no other vector that satisfies it has a smaller objective -/
def Exact (search : List ℝ → (List ℝ → ℝ) → (List ℝ → List ℝ) → (List ℝ → Res (Option ℝ)) → (List ℝ → Res (Option (List ℝ))) → Res (List ℝ × Bool)) : Prop :=
  ∀ x0 obj jac con dcon r, search x0 obj jac con dcon = .ok r → r.1.length = x0.length ∧ (∃ v, con r.1 = .ok (some v) ∧ -(1 / 2) ≤ v ∧ v ≤ 0) ∧
    ∀ y v, y.length = x0.length → con y = .ok (some v) → -(1 / 2) ≤ v → v ≤ 0 → obj r.1 ≤ obj y

/-- the fit for the starting values: the shape and the frozen parameter stay -/
def KeepsPoi (fitA : List ℝ → List ℝ) (idx : Nat) : Prop := ∀ x, (fitA x).length = x.length ∧ (fitA x)[idx]? = x[idx]?

/-- the number that a function returns, zero if there is none -/
def value (r : Res (Option ℝ)) : ℝ := match r with
  | .ok (some v) => v
  | _ => 0

/-- the list of partial derivatives -/
def IsGrad (h : List ℝ → ℝ) (x g : List ℝ) : Prop :=
  g.length = x.length ∧ ∀ j < x.length, HasDerivAt (fun t => h (x.set j t)) (g.getD j 0) (x.getD j 0)

end Spec

/-! ### The vector of the search -/

theorem insert_erase {l : List ℝ} {i : Nat} {a : ℝ} (h : l[i]? = some a) : (l.eraseIdx i).insertIdx i a = l := by
  induction l generalizing i with
  | nil => simp at h
  | cons b l ih =>
    cases i with
    | zero => simpa using h.symm
    | succ i => simpa using ih (by simpa using h)

/-- C96.  The vector of the search stands for the parameters of both fits with a common value of the parameter of the limit: what was packed comes back. -/
theorem c96_unpack (n idx : Nat) (x1 x2 : List ℝ) (h1 : x1.length = n) (h2 : x2.length = n) (hi : idx < n) (hc : x2[idx]? = x1[idx]?) :
    unpack idx (x1 ++ x2.eraseIdx idx) = .ok (x1, x2) := by
  have hlen : (x1 ++ x2.eraseIdx idx).length = n + (n - 1) := by
    rw [List.length_append, List.length_eraseIdx, h1, h2, if_pos hi]
  have hnx : (n + (n - 1) + 1) / 2 = n := by omega
  unfold unpack
  dsimp only
  rw [hlen, hnx, List.take_left' h1, List.drop_left' h1]
  have hx : x1[idx]? = some (x1[idx]'(by omega)) := List.getElem?_eq_getElem _
  rw [hx]
  dsimp only
  rw [if_pos (by rw [List.length_eraseIdx, h2, if_pos hi]; omega), insert_erase (by rw [hc, hx])]

/-- C96.  Every vector of the right length stands for such a pair. -/
theorem c96_vectors (n idx : Nat) (hi : idx < n) (y : List ℝ) (hy : y.length = n + (n - 1)) :
    ∃ x1 x2 : List ℝ, x1.length = n ∧ x2.length = n ∧ x2[idx]? = x1[idx]? ∧ y = x1 ++ x2.eraseIdx idx := by
  have hl1 : (y.take n).length = n := by rw [List.length_take]; omega
  have hl2 : (y.drop n).length = n - 1 := by rw [List.length_drop]; omega
  refine ⟨y.take n, (y.drop n).insertIdx idx ((y.take n)[idx]'(by omega)), hl1, ?_, ?_, ?_⟩
  · rw [List.length_insertIdx_of_le_length (by omega)]
    omega
  · rw [List.getElem?_insertIdx_self, if_pos (by omega)]
    exact (List.getElem?_eq_getElem _).symm
  · rw [List.eraseIdx_insertIdx_self, List.take_append_drop]

theorem both_ok {idx : Nat} {f a : Like} {x1 x2 : List ℝ} (h1 : x1.length = f.n) (h2 : x2.length = f.n) (ha : a.n = f.n) (hi : idx < f.n)
    (hc : x2[idx]? = x1[idx]?) : both idx f a (x1 ++ x2.eraseIdx idx) = .ok (x1, x2) := by
  unfold both
  rw [c96_unpack f.n idx x1 x2 h1 h2 hi hc]
  show (assign f x1).bind _ = _
  unfold assign
  rw [if_pos h1]
  show Except.map _ (if x2.length = a.n then _ else _) = _
  rw [if_pos (by omega)]
  rfl

/-- C96.  The search starts from the values of the fit to data and from a fit to the Asimov data with the same value of the parameter. -/
theorem c96_start (idx : Nat) (x : List ℝ) (a : Like) (fitA : List ℝ → List ℝ) (hx : x.length = a.n) (hi : idx < a.n) (hf : Spec.KeepsPoi fitA idx) :
    ∃ x0, start idx x a fitA = .ok x0 ∧ x0.length = a.n + (a.n - 1) ∧ unpack idx x0 = .ok (x, fitA ((List.replicate x.length 0).set idx (x.getD idx 0))) := by
  have hv : x[idx]? = some (x[idx]'(by omega)) := List.getElem?_eq_getElem _
  have hd : x.getD idx 0 = x[idx]'(by omega) := by rw [List.getD_eq_getElem?_getD, hv]; rfl
  rw [hd]
  have hl : ((List.replicate x.length (0 : ℝ)).set idx (x[idx]'(by omega))).length = a.n := by simp [hx]
  have hk := hf ((List.replicate x.length 0).set idx (x[idx]'(by omega)))
  refine ⟨x ++ (fitA ((List.replicate x.length 0).set idx (x[idx]'(by omega)))).eraseIdx idx, ?_, ?_, ?_⟩
  · unfold start assign
    rw [hv]
    dsimp only
    rw [if_pos hl]
    rfl
  · rw [List.length_append, List.length_eraseIdx, hk.1, hl, if_pos hi, hx]
  · refine c96_unpack a.n idx _ _ hx (hk.1.trans hl) hi ?_
    rw [hk.2, hv, List.getElem?_set_self (by simp; omega)]

/-- C96 does not hold for fits with different numbers of parameters, which the comment in the code allows: the search does not start. -/
theorem c96_different_violated (idx : Nat) (x : List ℝ) (a : Like) (fitA : List ℝ → List ℝ) (hi : idx < x.length) (hx : x.length ≠ a.n) :
    start idx x a fitA = .error .value := by
  unfold start assign
  rw [List.getElem?_eq_getElem hi]
  dsimp only
  rw [if_neg (by simpa using hx)]
  rfl

/-! ### The constraint -/

theorem cls_mono {q q' qA qA' : ℝ} (hq : q' ≤ q) (hA : qA' ≤ qA) (h0 : 0 ≤ qA') : Spec.cls q qA ≤ Spec.cls q' qA' := by
  unfold Spec.cls
  rw [← Normal.Phi_neg, ← Normal.Phi_neg, ← Normal.Phi_neg, ← Normal.Phi_neg, neg_sub, neg_sub]
  have h1 : Normal.Phi (-q) / Normal.Phi (qA - q) ≤ Normal.Phi (-q) / Normal.Phi (qA' - q) :=
    div_le_div_of_nonneg_left (Normal.Phi_pos _).le (Normal.Phi_pos _) (Normal.Phi_strictMono.monotone (by linarith))
  refine h1.trans ?_
  rcases h0.eq_or_lt with h | h
  · subst h
    rw [zero_sub, zero_sub, div_self (Normal.Phi_pos _).ne', div_self (Normal.Phi_pos _).ne']
  · rcases hq.eq_or_lt with h' | h'
    · rw [h']
    · have := Normal.Phi_ratio h (show qA' - q < qA' - q' by linarith)
      rw [show qA' - q - qA' = -q by ring, show qA' - q' - qA' = -q' by ring] at this
      exact this.le

theorem qOf_eq {f : Like} {x : List ℝ} (h : f.ref ≤ f.nll x) : qOf f x = some (Spec.root f.ref (f.nll x)) := by
  unfold qOf sqrt?
  rw [if_pos (by linarith)]
  rfl

/-- C96.  At every vector the constraint is a number, it is never below its lower bound, and it is satisfied if and only if the confidence in the signal is at least the level, for
the likelihoods of both fits at the parameters that the vector stands for. -/
theorem c96_constraint {idx : Nat} {f a : Like} {x1 x2 : List ℝ} {cl : ℝ} (hcl : 0 < cl) (h1 : x1.length = f.n) (h2 : x2.length = f.n) (ha : a.n = f.n) (hi : idx < f.n)
    (hc : x2[idx]? = x1[idx]?) (hf : Spec.Below f) (hA : Spec.Below a) :
    ∃ v, constraintAt Normal.Phi cl idx f a (x1 ++ x2.eraseIdx idx) = .ok (some v) ∧ -(1 / 2) ≤ v ∧
      (v ≤ 0 ↔ cl ≤ Spec.cls (Spec.root f.ref (f.nll x1)) (Spec.root a.ref (a.nll x2))) := by
  obtain ⟨q, N⟩ := Limits.c56_normal
  have h := Limits.c56_constraint N cl (Spec.root f.ref (f.nll x1)) (Spec.root a.ref (a.nll x2)) hcl (Real.sqrt_nonneg _)
  refine ⟨Limits.constraint Normal.Phi cl (Spec.root f.ref (f.nll x1)) (Spec.root a.ref (a.nll x2)), ?_, h.2.2, h.2.1⟩
  unfold constraintAt
  rw [both_ok h1 h2 ha hi hc]
  show Except.ok (constraintOf _ _ (qOf f x1) (qOf a x2)) = _
  rw [qOf_eq (hf x1 h1), qOf_eq (hA x2 (by omega))]
  rfl

/-- C96.  If the search does what it should, the limit is the largest value of the parameter for which the confidence in the signal, with all other parameters of both fits
profiled, is at least the level. -/
theorem c96_limit (search : List ℝ → (List ℝ → ℝ) → (List ℝ → List ℝ) → (List ℝ → Res (Option ℝ)) → (List ℝ → Res (Option (List ℝ))) → Res (List ℝ × Bool))
    (hsearch : Spec.Exact search) (fitA : List ℝ → List ℝ) (parms : List String) (param : String) (cl : ℝ) (f a : Like) (x : List ℝ) (lim : ℝ)
    (hcl : 0 < cl) (hn : parms.length = f.n) (ha : a.n = f.n) (hx : x.length = f.n) (hfit : Spec.KeepsPoi fitA (parms.idxOf param))
    (hf : Spec.Below f) (hA : Spec.Below a) (pf pa : ℝ → ℝ) (hpf : Spec.Profile f.nll f.n (parms.idxOf param) pf)
    (hpa : Spec.Profile a.nll f.n (parms.idxOf param) pa)
    (h : likelihoodLimit Normal.Phi search fitA parms param cl f a x = .ok lim) :
    IsGreatest {mu | cl ≤ Spec.cls (Spec.root f.ref (pf mu)) (Spec.root a.ref (pa mu))} lim := by
  unfold likelihoodLimit at h
  split_ifs at h with hp
  have hi : parms.idxOf param < f.n := by
    rw [← hn]
    exact List.idxOf_lt_length_iff.2 hp
  generalize parms.idxOf param = idx at *
  dsimp only at h
  obtain ⟨x0, hs, hl, -⟩ := c96_start idx x a fitA (by omega) (by omega) hfit
  rw [hs] at h
  change (search x0 _ _ _ _).bind _ = _ at h
  cases hr : search x0 (objective idx) (objectiveJac idx) (constraintAt Normal.Phi cl idx f a) (gradAt cl idx f a) with
  | error e => rw [hr] at h; exact nomatch h
  | ok r =>
  rw [hr] at h
  change (match r.1[idx]? with | none => Except.error Err.index | some v => Except.ok v) = _ at h
  obtain ⟨e1, ⟨v, e2, e3, e4⟩, e5⟩ := hsearch _ _ _ _ _ _ hr
  obtain ⟨y1, y2, g1, g2, g3, g4⟩ := c96_vectors f.n idx hi r.1 (by omega)
  have hlim : y1[idx]? = some lim := by
    rw [g4, List.getElem?_append_left (by omega)] at h
    rw [List.getElem?_eq_getElem (by omega : idx < y1.length)] at h ⊢
    dsimp only at h
    cases h
    rfl
  have hroot : ∀ {ref l l' : ℝ}, l ≤ l' → Spec.root ref l ≤ Spec.root ref l' := fun h => Real.sqrt_le_sqrt (by linarith)
  constructor
  · obtain ⟨w, k1, k2, k3⟩ := c96_constraint hcl g1 g2 ha hi g3 hf hA
    rw [← g4, e2] at k1
    cases k1
    refine (k3.1 e4).trans (cls_mono (hroot ((hpf lim).2 ⟨y1, ⟨g1, hlim⟩, rfl⟩)) (hroot ((hpa lim).2 ⟨y2, ⟨g2, g3.trans hlim⟩, rfl⟩)) (Real.sqrt_nonneg _))
  · intro mu hmu
    obtain ⟨z1, ⟨i1, i2⟩, i3⟩ := (hpf mu).1
    obtain ⟨z2, ⟨j1, j2⟩, j3⟩ := (hpa mu).1
    obtain ⟨w, k1, k2, k3⟩ := c96_constraint hcl i1 j1 ha hi (j2.trans i2.symm) hf hA
    have hle : w ≤ 0 := k3.2 (by rw [i3, j3]; exact hmu)
    have := e5 (z1 ++ z2.eraseIdx idx) w (by rw [List.length_append, List.length_eraseIdx, i1, j1, if_pos hi]; omega) k1 k2 hle
    unfold objective at this
    have o1 : r.1.getD idx 0 = lim := by
      rw [g4, List.getD_eq_getElem?_getD, List.getElem?_append_left (by omega), hlim]
      rfl
    have o2 : (z1 ++ z2.eraseIdx idx).getD idx 0 = mu := by
      rw [List.getD_eq_getElem?_getD, List.getElem?_append_left (by omega), i2]
      rfl
    rw [o1, o2] at this
    linarith

/-! ### Derivatives -/

/-- derivative of the constraint along a path -/
theorem constraint_deriv {u v : ℝ → ℝ} {u' v' t r1 r2 : ℝ} (cl : ℝ) (hu : HasDerivAt u u' t) (hv : HasDerivAt v v' t) (h1 : r1 < u t) (h2 : r2 < v t) :
    HasDerivAt (fun s => Limits.constraint Normal.Phi cl (Spec.root r1 (u s)) (Spec.root r2 (v s)))
      ((normalPdf (Spec.root r1 (u t)) - cl * normalPdf (Spec.root r2 (v t) - Spec.root r1 (u t))) * (u' / Spec.root r1 (u t)) +
        cl * normalPdf (Spec.root r2 (v t) - Spec.root r1 (u t)) * (v' / Spec.root r2 (v t))) t := by
  have hroot : ∀ {w : ℝ → ℝ} {w' r : ℝ}, HasDerivAt w w' t → r < w t → HasDerivAt (fun s => Spec.root r (w s)) (w' / Spec.root r (w t)) t := by
    intro w w' r hw hr
    have := ((hw.sub_const r).const_mul 2).sqrt (by linarith)
    unfold Spec.root
    convert this using 1
    field_simp
  have hU := hroot hu h1
  have hV := hroot hv h2
  unfold Limits.constraint
  rw [Normal.pdf_eq, Normal.pdf_eq]
  have hA := ((Normal.Phi_hasDerivAt (Spec.root r2 (v t) - Spec.root r1 (u t))).comp t (hV.sub hU)).const_mul cl
  have hB := (Normal.Phi_hasDerivAt (Spec.root r1 (u t))).comp t hU
  exact ((hA.add hB).sub_const 1).congr_deriv (by ring)

/-- the value of the constraint near a point -/
theorem value_eq {cl : ℝ} {idx : Nat} {f a : Like} {x1 x2 : ℝ → List ℝ} {y : ℝ → List ℝ} {t : ℝ} {u' v' : ℝ}
    (h1 : ∀ s, (x1 s).length = f.n) (h2 : ∀ s, (x2 s).length = f.n) (ha : a.n = f.n) (hi : idx < f.n) (hc : ∀ s, (x2 s)[idx]? = (x1 s)[idx]?)
    (hy : ∀ s, y s = x1 s ++ (x2 s).eraseIdx idx)
    (hu : HasDerivAt (fun s => f.nll (x1 s)) u' t) (hv : HasDerivAt (fun s => a.nll (x2 s)) v' t) (hp1 : f.ref < f.nll (x1 t)) (hp2 : a.ref < a.nll (x2 t)) :
    HasDerivAt (fun s => Spec.value (constraintAt Normal.Phi cl idx f a (y s)))
      ((normalPdf (Spec.root f.ref (f.nll (x1 t))) - cl * normalPdf (Spec.root a.ref (a.nll (x2 t)) - Spec.root f.ref (f.nll (x1 t)))) *
          (u' / Spec.root f.ref (f.nll (x1 t))) +
        cl * normalPdf (Spec.root a.ref (a.nll (x2 t)) - Spec.root f.ref (f.nll (x1 t))) * (v' / Spec.root a.ref (a.nll (x2 t)))) t := by
  refine (constraint_deriv cl hu hv hp1 hp2).congr_of_eventuallyEq ?_
  filter_upwards [hu.continuousAt.eventually (eventually_gt_nhds hp1), hv.continuousAt.eventually (eventually_gt_nhds hp2)] with s hs1 hs2
  rw [hy]
  unfold constraintAt
  rw [both_ok (h1 s) (h2 s) ha hi (hc s)]
  show Spec.value (.ok (constraintOf _ _ (qOf f (x1 s)) (qOf a (x2 s)))) = _
  rw [qOf_eq hs1.le, qOf_eq hs2.le]
  rfl

/-- position in the second fit of an entry of the second part of the vector -/
def second (idx k : Nat) : Nat := if k < idx then k else k + 1

theorem erase_set {l : List ℝ} {idx k : Nat} (t : ℝ) : (l.eraseIdx idx).set k t = (l.set (second idx k) t).eraseIdx idx := by
  rw [List.set_eraseIdx]
  unfold second
  by_cases h : k < idx
  · rw [if_neg (by omega), if_pos h]
  · rw [if_pos (by omega), if_neg h]

theorem erase_getD {l : List ℝ} {idx k : Nat} : (l.eraseIdx idx).getD k 0 = l.getD (second idx k) 0 := by
  rw [List.getD_eq_getElem?_getD, List.getD_eq_getElem?_getD, List.getElem?_eraseIdx]
  unfold second
  by_cases h : k < idx
  · rw [if_pos h, if_pos h]
  · rw [if_neg h, if_neg h]

section
variable {cl : ℝ} {idx : Nat} {f a : Like} {x1 x2 : List ℝ}

/-- the weights with which the derivatives of the likelihoods enter -/
noncomputable def weights (cl : ℝ) (f a : Like) (x1 x2 : List ℝ) : ℝ × ℝ :=
  (normalPdf (Spec.root f.ref (f.nll x1)) - cl * normalPdf (Spec.root a.ref (a.nll x2) - Spec.root f.ref (f.nll x1)),
    cl * normalPdf (Spec.root a.ref (a.nll x2) - Spec.root f.ref (f.nll x1)))

/-- derivatives that the two likelihoods contribute to entry `j` of the vector -/
def parts (n idx : Nat) (g1 g2 : List ℝ) (j : Nat) : ℝ × ℝ :=
  if j < n then (g1.getD j 0, if j = idx then g2.getD idx 0 else 0) else (0, g2.getD (second idx (j - n)) 0)

/-- the derivative of the constraint with respect to entry `j` -/
theorem true_deriv (h1 : x1.length = f.n) (h2 : x2.length = f.n) (ha : a.n = f.n) (hi : idx < f.n) (hc : x2[idx]? = x1[idx]?)
    (hg1 : Spec.IsGrad f.nll x1 (f.grad x1)) (hg2 : Spec.IsGrad a.nll x2 (a.grad x2)) (hp1 : f.ref < f.nll x1) (hp2 : a.ref < a.nll x2)
    (j : Nat) (hj : j < (x1 ++ x2.eraseIdx idx).length) :
    HasDerivAt (fun t => Spec.value (constraintAt Normal.Phi cl idx f a ((x1 ++ x2.eraseIdx idx).set j t)))
      ((weights cl f a x1 x2).1 * ((parts f.n idx (f.grad x1) (a.grad x2) j).1 / Spec.root f.ref (f.nll x1)) +
        (weights cl f a x1 x2).2 * ((parts f.n idx (f.grad x1) (a.grad x2) j).2 / Spec.root a.ref (a.nll x2)))
      ((x1 ++ x2.eraseIdx idx).getD j 0) := by
  have hset : ∀ {l : List ℝ} {k : Nat}, l.set k (l.getD k 0) = l := by
    intro l k
    by_cases hk : k < l.length
    · rw [List.getD_eq_getElem?_getD, List.getElem?_eq_getElem hk]
      exact List.set_getElem_self hk
    · exact List.set_eq_of_length_le (by omega)
  have hlen : (x1 ++ x2.eraseIdx idx).length = f.n + (f.n - 1) := by
    rw [List.length_append, List.length_eraseIdx, h1, h2, if_pos hi]
  rw [hlen] at hj
  unfold parts
  by_cases hjn : j < f.n
  · rw [if_pos hjn]
    have hd : (x1 ++ x2.eraseIdx idx).getD j 0 = x1.getD j 0 := by
      rw [List.getD_eq_getElem?_getD, List.getElem?_append_left (by omega), ← List.getD_eq_getElem?_getD]
    rw [hd]
    by_cases hji : j = idx
    · subst hji
      rw [if_pos rfl]
      have hd2 : x2.getD j 0 = x1.getD j 0 := by
        rw [List.getD_eq_getElem?_getD, List.getD_eq_getElem?_getD, hc]
      have := value_eq (cl := cl) (idx := j) (f := f) (a := a) (x1 := fun t => x1.set j t) (x2 := fun t => x2.set j t)
        (y := fun t => (x1 ++ x2.eraseIdx j).set j t) (t := x1.getD j 0)
        (by simpa using h1) (by simpa using h2) ha hi
        (fun t => by rw [List.getElem?_set_self (by omega), List.getElem?_set_self (by omega)])
        (fun t => by rw [List.eraseIdx_set_eq, List.set_append_left _ _ (by omega)])
        (hg1.2 j (by omega)) (by rw [← hd2]; exact hg2.2 j (by omega)) (by rw [hset]; exact hp1)
        (by rw [← hd2, hset]; exact hp2)
      rw [hset, show x2.set j (x1.getD j 0) = x2 by rw [← hd2, hset]] at this
      exact this
    · rw [if_neg hji]
      have := value_eq (cl := cl) (idx := idx) (f := f) (a := a) (x1 := fun t => x1.set j t) (x2 := fun _ => x2)
        (y := fun t => (x1 ++ x2.eraseIdx idx).set j t) (t := x1.getD j 0)
        (by simpa using h1) (fun _ => h2) ha hi
        (fun t => by rw [List.getElem?_set_ne (by omega), hc])
        (fun t => by rw [List.set_append_left _ _ (by omega)])
        (hg1.2 j (by omega)) (hasDerivAt_const _ _) (by rw [hset]; exact hp1) hp2
      rw [hset] at this
      exact this
  · rw [if_neg hjn]
    have hk : second idx (j - f.n) < x2.length ∧ second idx (j - f.n) ≠ idx := by
      unfold second
      split_ifs <;> omega
    have hd : (x1 ++ x2.eraseIdx idx).getD j 0 = x2.getD (second idx (j - f.n)) 0 := by
      rw [List.getD_eq_getElem?_getD, List.getElem?_append_right (by omega), ← List.getD_eq_getElem?_getD, h1, erase_getD]
    rw [hd]
    have := value_eq (cl := cl) (idx := idx) (f := f) (a := a) (x1 := fun _ => x1) (x2 := fun t => x2.set (second idx (j - f.n)) t)
      (y := fun t => (x1 ++ x2.eraseIdx idx).set j t) (t := x2.getD (second idx (j - f.n)) 0)
      (fun _ => h1) (by simpa using h2) ha hi
      (fun t => by rw [List.getElem?_set_ne hk.2, hc])
      (fun t => by rw [List.set_append_right _ _ (by omega), h1, erase_set])
      (hasDerivAt_const _ _) (hg2.2 _ hk.1) hp1 (by rw [hset]; exact hp2)
    rw [hset] at this
    exact this

/-- the entries of the derivative that the code computes -/
theorem code_grad (h1 : x1.length = f.n) (h2 : x2.length = f.n) (ha : a.n = f.n) (hi : idx < f.n) (hc : x2[idx]? = x1[idx]?)
    (hl1 : (f.grad x1).length = f.n) (hl2 : (a.grad x2).length = f.n) (hr1 : f.ref ≤ f.nll x1) (hr2 : a.ref ≤ a.nll x2) (hp1 : 0 < f.nll x1) (hp2 : 0 < a.nll x2) :
    ∃ g, gradAt cl idx f a (x1 ++ x2.eraseIdx idx) = .ok (some g) ∧ g.length = (x1 ++ x2.eraseIdx idx).length ∧ ∀ j < g.length, g.getD j 0 =
      (weights cl f a x1 x2).1 * ((parts f.n idx (f.grad x1) (a.grad x2) j).1 / Spec.root 0 (f.nll x1)) +
        (weights cl f a x1 x2).2 * ((parts f.n idx (f.grad x1) (a.grad x2) j).2 / Spec.root 0 (a.nll x2)) := by
  refine ⟨gradOf cl idx (Spec.root f.ref (f.nll x1)) (Spec.root a.ref (a.nll x2)) ((f.grad x1).map (· / Real.sqrt (2 * f.nll x1)))
    ((a.grad x2).map (· / Real.sqrt (2 * a.nll x2))), ?_, ?_, ?_⟩
  · unfold gradAt
    rw [both_ok h1 h2 ha hi hc]
    show Except.ok (gradParts _ _ _ _ _) = _
    unfold gradParts
    dsimp only
    rw [qOf_eq hr1, qOf_eq hr2]
    unfold rootGrad
    rw [if_pos hp1, if_pos hp2]
  · unfold gradOf
    dsimp only
    simp only [List.length_append, List.length_set, List.length_map, List.length_eraseIdx, hl1, hl2, h1, h2]
  · intro j hj
    have hlen : (gradOf cl idx (Spec.root f.ref (f.nll x1)) (Spec.root a.ref (a.nll x2)) ((f.grad x1).map (· / Real.sqrt (2 * f.nll x1)))
        ((a.grad x2).map (· / Real.sqrt (2 * a.nll x2)))).length = f.n + (f.n - 1) := by
      unfold gradOf
      dsimp only
      simp only [List.length_append, List.length_set, List.length_map, List.length_eraseIdx, hl1, hl2, if_pos hi]
    rw [hlen] at hj
    have hmap : ∀ (l : List ℝ) (w c : ℝ) (k : Nat), ((l.map (· / c)).map fun g => w * g).getD k 0 = w * (l.getD k 0 / c) := by
      intro l w c k
      rw [List.getD_eq_getElem?_getD, List.getD_eq_getElem?_getD, List.getElem?_map, List.getElem?_map]
      cases l[k]? <;> simp
    unfold gradOf parts Spec.root
    dsimp only
    rw [sub_zero, sub_zero]
    by_cases hjn : j < f.n
    · rw [if_pos hjn, List.getD_eq_getElem?_getD, List.getElem?_append_left (by simpa [hl1] using hjn)]
      by_cases hji : j = idx
      · subst hji
        rw [List.getElem?_set_self (by simpa [hl1] using hjn), if_pos rfl, hmap, hmap]
        rfl
      · rw [List.getElem?_set_ne (Ne.symm hji), ← List.getD_eq_getElem?_getD, hmap, if_neg hji]
        simp [weights, Spec.root]
    · rw [if_neg hjn, List.getD_eq_getElem?_getD, List.getElem?_append_right (by simpa [hl1] using hjn), ← List.getD_eq_getElem?_getD, erase_getD, hmap]
      simp [weights, Spec.root, hl1]

/-- C96.  If the minima of both likelihoods are zero, the derivative that is handed to the search is the derivative of the constraint, for every entry of the vector
(missing: other minima, see `c96_gradient_violated`). -/
theorem c96_gradient_partial (h1 : x1.length = f.n) (h2 : x2.length = f.n) (ha : a.n = f.n) (hi : idx < f.n) (hc : x2[idx]? = x1[idx]?)
    (hg1 : Spec.IsGrad f.nll x1 (f.grad x1)) (hg2 : Spec.IsGrad a.nll x2 (a.grad x2)) (hr1 : f.ref = 0) (hr2 : a.ref = 0) (hp1 : 0 < f.nll x1) (hp2 : 0 < a.nll x2) :
    ∃ g, gradAt cl idx f a (x1 ++ x2.eraseIdx idx) = .ok (some g) ∧
      Spec.IsGrad (fun y => Spec.value (constraintAt Normal.Phi cl idx f a y)) (x1 ++ x2.eraseIdx idx) g := by
  obtain ⟨g, e1, e2, e3⟩ := code_grad (cl := cl) h1 h2 ha hi hc (hg1.1.trans h1) (hg2.1.trans h2) (by rw [hr1]; exact hp1.le) (by rw [hr2]; exact hp2.le) hp1 hp2
  refine ⟨g, e1, e2, fun j hj => ?_⟩
  rw [e3 j (by omega)]
  have := true_deriv (cl := cl) h1 h2 ha hi hc hg1 hg2 (by rw [hr1]; exact hp1) (by rw [hr2]; exact hp2) j hj
  rw [hr1, hr2] at this
  exact this

/-- C96 does not hold if the minimum of the likelihood of the data is not zero, as after every fit to real data: the code differentiates the square root of twice the likelihood instead of
the square root of twice its distance to the minimum.  For every other parameter of the fit to data on which the constraint depends, the derivative handed to the search
is too small by the factor of the two roots. -/
theorem c96_gradient_violated (h1 : x1.length = f.n) (h2 : x2.length = f.n) (ha : a.n = f.n) (hi : idx < f.n) (hc : x2[idx]? = x1[idx]?)
    (hg1 : Spec.IsGrad f.nll x1 (f.grad x1)) (hg2 : Spec.IsGrad a.nll x2 (a.grad x2)) (hr1 : 0 < f.ref) (hr2 : 0 ≤ a.ref) (hp1 : f.ref < f.nll x1) (hp2 : a.ref < a.nll x2)
    (j : Nat) (hj : j < f.n) (hji : j ≠ idx) (d : ℝ)
    (hd : HasDerivAt (fun t => Spec.value (constraintAt Normal.Phi cl idx f a ((x1 ++ x2.eraseIdx idx).set j t))) d ((x1 ++ x2.eraseIdx idx).getD j 0)) (h0 : d ≠ 0) :
    ∃ g, gradAt cl idx f a (x1 ++ x2.eraseIdx idx) = .ok (some g) ∧ g.getD j 0 = d * (Spec.root f.ref (f.nll x1) / Spec.root 0 (f.nll x1)) ∧ g.getD j 0 ≠ d := by
  have hjl : j < (x1 ++ x2.eraseIdx idx).length := by rw [List.length_append]; omega
  obtain ⟨g, e1, e2, e3⟩ := code_grad (cl := cl) h1 h2 ha hi hc (hg1.1.trans h1) (hg2.1.trans h2) hp1.le hp2.le (by linarith) (by linarith)
  have ht := hd.unique (true_deriv (cl := cl) h1 h2 ha hi hc hg1 hg2 hp1 hp2 j hjl)
  have hpart : (parts f.n idx (f.grad x1) (a.grad x2) j).2 = 0 := by
    unfold parts
    rw [if_pos hj, if_neg hji]
  have he := e3 j (by omega)
  rw [hpart, zero_div, mul_zero, add_zero] at ht he
  have hs1 : 0 < Spec.root f.ref (f.nll x1) := Real.sqrt_pos.2 (by linarith)
  have hs2 : Spec.root f.ref (f.nll x1) < Spec.root 0 (f.nll x1) := Real.sqrt_lt_sqrt (by linarith) (by linarith)
  have hs3 := hs1.trans hs2
  have hprod : g.getD j 0 = d * (Spec.root f.ref (f.nll x1) / Spec.root 0 (f.nll x1)) := by
    rw [he, ht]
    field_simp
  refine ⟨g, e1, hprod, fun hne => ?_⟩
  rw [hprod] at hne
  have : Spec.root f.ref (f.nll x1) / Spec.root 0 (f.nll x1) = 1 := by
    have := mul_left_cancel₀ h0 (hne.trans (mul_one d).symm)
    exact this
  rw [div_eq_one_iff_eq hs3.ne'] at this
  linarith

end

/-- C96 does not hold for the derivative of the objective: what is handed to the search is a thousandth of it. -/
theorem c96_objective_violated (idx : Nat) (x : List ℝ) (hi : idx < x.length) :
    ∃ g, Spec.IsGrad (objective idx) x g ∧ objectiveJac idx x = g.map (· / 1000) ∧ objectiveJac idx x ≠ g := by
  refine ⟨(List.replicate x.length 0).set idx (-1), ⟨by simp, fun j hj => ?_⟩, ?_, ?_⟩
  · unfold objective
    by_cases h : j = idx
    · subst h
      have h1 : (fun t : ℝ => -(x.set j t).getD j 0) = fun t => -t := by
        funext t
        rw [List.getD_eq_getElem?_getD, List.getElem?_set_self hj]
        rfl
      rw [h1, List.getD_eq_getElem?_getD, List.getElem?_set_self (by simpa using hj)]
      exact (hasDerivAt_id _).neg
    · have h1 : (fun t : ℝ => -(x.set j t).getD idx 0) = fun t => -x.getD idx 0 := by
        funext t
        rw [List.getD_eq_getElem?_getD, List.getElem?_set_ne h, ← List.getD_eq_getElem?_getD]
      have h2 : ((List.replicate x.length (0 : ℝ)).set idx (-1)).getD j 0 = 0 := by
        rw [List.getD_eq_getElem?_getD, List.getElem?_set_ne (Ne.symm h), List.getElem?_replicate, if_pos hj]
        rfl
      rw [h1, h2]
      exact hasDerivAt_const _ _
  · unfold objectiveJac
    rw [List.map_set, List.map_replicate]
    norm_num
  · unfold objectiveJac
    intro h
    have := congrArg (fun l => l.getD idx 0) h
    simp only [List.getD_eq_getElem?_getD] at this
    rw [List.getElem?_set_self (by simpa using hi), List.getElem?_set_self (by simpa using hi)] at this
    norm_num at this

/-- C96 does not hold for a search that fails: whether it succeeded makes no difference to the limit. -/
theorem c96_success_violated (Phi : ℝ → ℝ)
    (search : List ℝ → (List ℝ → ℝ) → (List ℝ → List ℝ) → (List ℝ → Res (Option ℝ)) → (List ℝ → Res (Option (List ℝ))) → Res (List ℝ × Bool))
    (fitA : List ℝ → List ℝ) (parms : List String) (param : String) (cl : ℝ) (f a : Like) (x : List ℝ) :
    likelihoodLimit Phi (fun x0 o j c d => (search x0 o j c d).map fun r => (r.1, !r.2)) fitA parms param cl f a x =
      likelihoodLimit Phi search fitA parms param cl f a x := by
  unfold likelihoodLimit
  split_ifs with hp
  · dsimp only
    cases hs : start (parms.idxOf param) x a fitA with
    | error e => rfl
    | ok x0 =>
      show ((search x0 _ _ _ _).map _).bind _ = (search x0 _ _ _ _).bind _
      cases search x0 (objective (parms.idxOf param)) (objectiveJac (parms.idxOf param)) (constraintAt Phi cl (parms.idxOf param) f a)
        (gradAt cl (parms.idxOf param) f a) <;> rfl
  · rfl

/-- C96.  A name that is no parameter is refused. -/
theorem c96_unknown (Phi : ℝ → ℝ)
    (search : List ℝ → (List ℝ → ℝ) → (List ℝ → List ℝ) → (List ℝ → Res (Option ℝ)) → (List ℝ → Res (Option (List ℝ))) → Res (List ℝ × Bool))
    (fitA : List ℝ → List ℝ) (parms : List String) (param : String) (cl : ℝ) (f a : Like) (x : List ℝ) (h : param ∉ parms) :
    likelihoodLimit Phi search fitA parms param cl f a x = .error .index := by
  unfold likelihoodLimit
  rw [if_pos h]

/-! ### Examples -/

namespace Ex96

/-- two parameters, the likelihood `m + (x₀ - 1)² / 2 + x₁² / 2` -/
noncomputable def like (m : ℝ) : Like where
  n := 2
  nll x := m + (x.getD 0 0 - 1) ^ 2 / 2 + x.getD 1 0 ^ 2 / 2
  grad x := [x.getD 0 0 - 1, x.getD 1 0]
  ref := m

theorem isGrad (m u v : ℝ) : Spec.IsGrad (like m).nll [u, v] ((like m).grad [u, v]) := by
  refine ⟨rfl, fun j hj => ?_⟩
  have hj : j = 0 ∨ j = 1 := by simp at hj; omega
  rcases hj with rfl | rfl
  · have h := ((((hasDerivAt_id u).sub_const 1).pow 2).div_const 2).const_add m |>.add_const (v ^ 2 / 2)
    refine h.congr_deriv ?_
    simp [like]
  · have h := (((hasDerivAt_id v).pow 2).div_const 2).const_add (m + (u - 1) ^ 2 / 2)
    refine h.congr_deriv ?_
    simp [like]

/-- three numbers stand for two points with the same first entry -/
example : unpack 0 [2, 1, 5] = .ok ([2, 1], [2, 5]) :=
  c96_unpack 2 0 [2, 1] [2, 5] rfl rfl (by decide) rfl

example : ∃ g, gradAt (1 / 20) 0 (like 0) (like 0) [2, 1, 5] = .ok (some g) ∧
    Spec.IsGrad (fun y => Spec.value (constraintAt Normal.Phi (1 / 20) 0 (like 0) (like 0) y)) [2, 1, 5] g :=
  c96_gradient_partial (x1 := [2, 1]) (x2 := [2, 5]) rfl rfl rfl (by decide) rfl (isGrad 0 2 1) (isGrad 0 2 5) rfl rfl (by norm_num [like]) (by norm_num [like])

/-- likelihoods above their minima 1 -/
example : ∃ d : ℝ, HasDerivAt (fun t : ℝ => Spec.value (constraintAt Normal.Phi (1 / 20) 0 (like 1) (like 1) (List.set [2, 1, 5] 1 t))) d 1 ∧
    ∃ g, gradAt (1 / 20) 0 (like 1) (like 1) [2, 1, 5] = .ok (some g) ∧ g.getD 1 0 ≠ d := by
  have h := true_deriv (cl := 1 / 20) (idx := 0) (f := like 1) (a := like 1) (x1 := [2, 1]) (x2 := [2, 5]) rfl rfl rfl (by decide) rfl (isGrad 1 2 1) (isGrad 1 2 5)
    (by norm_num [like]) (by norm_num [like]) 1 (by decide)
  refine ⟨_, h, ?_⟩
  have h0 : (weights (1 / 20) (like 1) (like 1) [2, 1] [2, 5]).1 *
        ((parts (like 1).n 0 ((like 1).grad [2, 1]) ((like 1).grad [2, 5]) 1).1 / Spec.root (like 1).ref ((like 1).nll [2, 1])) +
      (weights (1 / 20) (like 1) (like 1) [2, 1] [2, 5]).2 *
        ((parts (like 1).n 0 ((like 1).grad [2, 1]) ((like 1).grad [2, 5]) 1).2 / Spec.root (like 1).ref ((like 1).nll [2, 5])) ≠ 0 := by
    have hp : (parts (like 1).n 0 ((like 1).grad [2, 1]) ((like 1).grad [2, 5]) 1) = (1, 0) := by simp [parts, like]
    have hroot : Spec.root (like 1).ref ((like 1).nll [2, 1]) = Real.sqrt 2 := by
      unfold Spec.root like
      norm_num
    rw [hp]
    dsimp only
    rw [zero_div, mul_zero, add_zero]
    refine mul_ne_zero (ne_of_gt ?_) (by rw [hroot]; positivity)
    unfold weights
    dsimp only
    rw [hroot]
    unfold normalPdf
    rw [Real.sq_sqrt (by norm_num), show -(1 / 2 : ℝ) * 2 = -1 by norm_num]
    have h1 : Real.exp (-(1 / 2) * (Spec.root (like 1).ref ((like 1).nll [2, 5]) - Real.sqrt 2) ^ 2) ≤ 1 :=
      Real.exp_le_one_iff.2 (by nlinarith [sq_nonneg (Spec.root (like 1).ref ((like 1).nll [2, 5]) - Real.sqrt 2)])
    have h2 : (1 / 20 : ℝ) < Real.exp (-1) := by
      rw [Real.exp_neg, one_div]
      exact inv_strictAnti₀ (Real.exp_pos 1) (by linarith [Real.exp_one_lt_d9])
    have h3 : 0 < Real.sqrt (2 * Real.pi) := Real.sqrt_pos.2 (by positivity)
    rw [← mul_div_assoc, ← sub_div]
    exact div_pos (by linarith) h3
  obtain ⟨g, e1, _, e3⟩ := c96_gradient_violated (cl := 1 / 20) (idx := 0) (f := like 1) (a := like 1) (x1 := [2, 1]) (x2 := [2, 5]) rfl rfl rfl (by decide) rfl
    (isGrad 1 2 1) (isGrad 1 2 5) (by norm_num [like]) (by norm_num [like]) (by norm_num [like]) (by norm_num [like]) 1 (by decide) (by decide) _ h h0
  exact ⟨g, e1, e3⟩

/-- one parameter, the likelihood `x² / 2` for both fits -/
noncomputable def one : Like where
  n := 1
  nll x := x.getD 0 0 ^ 2 / 2
  grad x := [x.getD 0 0]
  ref := 0

open Classical in
/-- a search that finds the optimum if there is one -/
noncomputable def search (x0 : List ℝ) (obj : List ℝ → ℝ) (_ : List ℝ → List ℝ) (con : List ℝ → Res (Option ℝ)) (_ : List ℝ → Res (Option (List ℝ))) : Res (List ℝ × Bool) :=
  if h : ∃ r : List ℝ, r.length = x0.length ∧ (∃ v, con r = .ok (some v) ∧ -(1 / 2) ≤ v ∧ v ≤ 0) ∧
    ∀ y v, y.length = x0.length → con y = .ok (some v) → -(1 / 2) ≤ v → v ≤ 0 → obj r ≤ obj y then .ok (h.choose, true) else .error .runtime

theorem exact_search : Spec.Exact search := by
  intro x0 obj jac con dcon r h
  unfold search at h
  split_ifs at h with hr
  cases h
  exact hr.choose_spec

theorem one_below : Spec.Below one := fun x _ => by
  unfold one
  positivity

theorem one_profile : Spec.Profile one.nll 1 0 fun mu => mu ^ 2 / 2 := by
  intro mu
  constructor
  · exact ⟨[mu], ⟨rfl, rfl⟩, rfl⟩
  · rintro _ ⟨x, ⟨_, hx⟩, rfl⟩
    simp [one, List.getD_eq_getElem?_getD, hx]

theorem one_cls (mu : ℝ) : Spec.cls (Spec.root one.ref (mu ^ 2 / 2)) (Spec.root one.ref (mu ^ 2 / 2)) = 2 * (1 - Normal.Phi |mu|) := by
  have h0 : Normal.Phi 0 = 1 / 2 := by
    have := Normal.Phi_neg 0
    rw [neg_zero] at this
    linarith
  unfold Spec.cls Spec.root one
  rw [sub_self, h0, show 2 * (mu ^ 2 / 2 - 0) = mu ^ 2 by ring, Real.sqrt_sq_eq_abs]
  ring

/-- the limit at level 1/20 -/
example : ∃ lim, likelihoodLimit Normal.Phi search id ["mu"] "mu" (1 / 20) one one [0] = .ok lim ∧
    IsGreatest {mu | 1 / 20 ≤ Spec.cls (Spec.root one.ref (mu ^ 2 / 2)) (Spec.root one.ref (mu ^ 2 / 2))} lim := by
  have hex : ∃ r, search [0] (objective 0) (objectiveJac 0) (constraintAt Normal.Phi (1 / 20) 0 one one) (gradAt (1 / 20) 0 one one) = .ok r := by
    obtain ⟨z, hz⟩ := Normal.Phi_onto (p := 39 / 40) (by norm_num) (by norm_num)
    have hz0 : 0 ≤ z := by
      by_contra hneg
      have h1 := Normal.Phi_strictMono (lt_of_not_ge hneg)
      have h2 := Normal.Phi_neg 0
      rw [neg_zero] at h2
      linarith
    have hcon : ∀ u : ℝ, ∃ v, constraintAt Normal.Phi (1 / 20) 0 one one [u] = .ok (some v) ∧ -(1 / 2) ≤ v ∧ (v ≤ 0 ↔ |u| ≤ z) := by
      intro u
      obtain ⟨v, h1, h2, h3⟩ := c96_constraint (cl := 1 / 20) (idx := 0) (f := one) (a := one) (x1 := [u]) (x2 := [u]) (by norm_num) rfl rfl rfl (by decide) rfl one_below one_below
      refine ⟨v, h1, h2, h3.trans ?_⟩
      rw [show one.nll [u] = u ^ 2 / 2 from rfl, one_cls, ← Normal.Phi_strictMono.le_iff_le (a := |u|), hz]
      constructor <;> intro h <;> linarith
    unfold search
    rw [dif_pos]
    · exact ⟨_, rfl⟩
    · refine ⟨[z], rfl, ?_, ?_⟩
      · obtain ⟨v, h1, h2, h3⟩ := hcon z
        exact ⟨v, h1, h2, h3.2 (by rw [abs_of_nonneg hz0])⟩
      · intro y v hy h1 h2 h3
        match y, hy with
        | [u], _ =>
          obtain ⟨w, k1, k2, k3⟩ := hcon u
          rw [k1] at h1
          cases h1
          have := (le_abs_self u).trans (k3.1 h3)
          show -z ≤ -u
          linarith
  obtain ⟨r, hr⟩ := hex
  have hl := (exact_search _ _ _ _ _ _ hr).1
  match hr1 : r.1, hl with
  | [u], _ =>
    have hrun : likelihoodLimit Normal.Phi search id ["mu"] "mu" (1 / 20) one one [0] = .ok u := by
      unfold likelihoodLimit
      rw [if_neg (by simp)]
      show (search [0] (objective 0) (objectiveJac 0) (constraintAt Normal.Phi (1 / 20) 0 one one) (gradAt (1 / 20) 0 one one)).bind _ = _
      rw [hr]
      show (match r.1[0]? with | none => Except.error Err.index | some v => Except.ok v) = _
      rw [hr1]
      rfl
    exact ⟨u, hrun, c96_limit search exact_search id ["mu"] "mu" (1 / 20) one one [0] u (by norm_num) rfl rfl rfl (fun x => ⟨rfl, rfl⟩) one_below one_below _ _
      one_profile one_profile hrun⟩

end Ex96

end Verif.LikelihoodLimit
