import Verif.Model.Scans
import Mathlib.Tactic.NormNum

/-!
C62: what the iterative fit leaves behind when the minimiser or its callback raises.
-/

namespace Verif.Scans

variable {X L : Type} [LinearOrder L]

/-! ### Specification -/

/-- the loss is not below the loss recorded `es` iterations ago, and more than `es` iterations were recorded -/
def Spec.noImprovement (es : Int) (history : List L) (loss : L) : Prop :=
  0 < es ∧ es < history.length ∧ ∃ v, history.reverse[(es - 1).toNat]? = some v ∧ ¬ loss < v

/-- an iteration at which the callback raises -/
def Spec.raisesAt (es : Int) (history : List L) (it : Iter X L) : Prop :=
  it.loss = none ∨ ∃ l, it.loss = some l ∧ Spec.noImprovement es history l

theorem stops_iff (c : Callback X L) (loss : L) : c.stops loss = true ↔ Spec.noImprovement c.es c.history loss := by
  unfold Callback.stops Spec.noImprovement
  simp only [Bool.and_eq_true, decide_eq_true_eq, not_lt, and_assoc]
  refine and_congr_right fun h1 => and_congr_right fun h2 => ?_
  rw [List.getElem?_reverse (by omega)]
  have : c.history.length - 1 - (c.es - 1).toNat = c.history.length - c.es.toNat := by omega
  rw [this]
  cases c.history[c.history.length - c.es.toNat]? with
  | none => simp
  | some v => simp

/-- the last element of a nonempty list given by its head and tail -/
def lastOf (x : X) (l : List X) : X := l.getLastD x

theorem run_spec (its : List (Iter X L)) (e : Ending X) (c : Callback X L) (x : X) (hx : c.xval = x) :
    ∃ k, k ≤ its.length ∧
      (scipyMinimize its e c).1.history.map some = c.history.map some ++ (its.take k).map Iter.loss ∧
      (scipyMinimize its e c).1.xval = lastOf x ((its.take k).map Iter.x) ∧
      (∀ j, j < k → ∃ it l, its[j]? = some it ∧ it.loss = some l ∧
        ¬ Spec.noImprovement c.es ((scipyMinimize its e c).1.history.take (c.history.length + j)) l) ∧
      ((k = its.length ∧ (scipyMinimize its e c).2 = match e with
          | .returns x' => .ok x'
          | .raises => .error .exception) ∨
        ∃ it, its[k]? = some it ∧ Spec.raisesAt c.es (scipyMinimize its e c).1.history it ∧
          (scipyMinimize its e c).2 = .error .value) := by
  induction its generalizing c x with
  | nil =>
    cases e <;> exact ⟨0, le_rfl, by simp [scipyMinimize], hx, by omega, .inl ⟨rfl, rfl⟩⟩
  | cons it its ih =>
    unfold scipyMinimize Callback.call
    cases hl : it.loss with
    | none =>
      exact ⟨0, by simp, by simp, hx, by omega, .inr ⟨it, by simp, .inl hl, rfl⟩⟩
    | some l =>
      by_cases hs : c.stops l = true
      · simp only [hs, if_true]
        exact ⟨0, by simp, by simp, hx, by omega, .inr ⟨it, by simp, .inr ⟨l, hl, (stops_iff c l).1 hs⟩, trivial⟩⟩
      · simp only [hs, Bool.false_eq_true, if_false]
        obtain ⟨k, h1, h2, h3, h4, h5⟩ := ih { c with history := c.history ++ [l], xval := it.x, iiter := c.iiter + 1 }
          it.x rfl
        generalize hr : scipyMinimize its e _ = r at *
        have hpre : r.1.history.take (c.history.length) = c.history := by
          have h2' : r.1.history.map some = c.history.map some ++ (some l :: (its.take k).map Iter.loss) := by
            rw [h2]; simp
          have := congrArg (List.take c.history.length) h2'
          rw [← List.map_take, List.take_append_of_le_length (by simp)] at this
          rw [List.take_of_length_le (l := c.history.map some) (by simp)] at this
          exact List.map_injective_iff.2 (Option.some_injective L) this
        refine ⟨k + 1, by simp [h1], by simp [h2, hl], ?_, ?_, ?_⟩
        · rw [h3]
          simp only [lastOf, List.take_succ_cons, List.map_cons]
          cases (its.take k).map Iter.x with
          | nil => rfl
          | cons a as => rfl
        · intro j hj
          cases j with
          | zero =>
            refine ⟨it, l, by simp, hl, ?_⟩
            rw [Nat.add_zero, hpre, ← stops_iff]
            exact hs
          | succ j =>
            obtain ⟨it', l', g1, g2, g3⟩ := h4 j (by omega)
            refine ⟨it', l', by simpa using g1, g2, ?_⟩
            have : c.history.length + (j + 1) = (c.history ++ [l]).length + j := by simp; omega
            rw [this]
            exact g3
        · rcases h5 with ⟨rfl, h5⟩ | ⟨it', g1, g2, g3⟩
          · exact .inl ⟨by simp, h5⟩
          · exact .inr ⟨it', by simpa using g1, g2, g3⟩

/-- The iterations before the first NaN loss or early stop are recorded.  If there is such an iteration, or the minimiser raises
after the last one, the fit keeps the vector of the last recorded iteration (the initial one if there is none); otherwise
it takes the returned vector. -/
theorem c62_fit (its : List (Iter X L)) (e : Ending X) (es : Int) (x : X) :
    ∃ k, k ≤ its.length ∧
      (∀ j, j < k → ∃ it l, its[j]? = some it ∧ it.loss = some l ∧
        ¬ Spec.noImprovement es ((its.take j).filterMap Iter.loss) l) ∧
      ((k = its.length ∧ (∃ x', e = .returns x') ∧ ∀ x', e = .returns x' → (fitIter its e es x).1 = x') ∨
       (k = its.length ∧ e = .raises ∧ (fitIter its e es x).1 = lastOf x (its.map Iter.x)) ∨
       ∃ it, its[k]? = some it ∧ Spec.raisesAt es ((its.take k).filterMap Iter.loss) it ∧
        (fitIter its e es x).1 = lastOf x ((its.take k).map Iter.x)) := by
  obtain ⟨k, h1, h2, h3, h4, h5⟩ := run_spec its e (Callback.init x es) x rfl
  unfold fitIter
  generalize scipyMinimize its e (Callback.init x es) = r at *
  have hh : ∀ j, j ≤ k → r.1.history.take j = (its.take j).filterMap Iter.loss := by
    intro j hj
    have : (its.take j).map Iter.loss = (r.1.history.take j).map some := by
      rw [List.map_take (f := some), h2]
      simp only [Callback.init, List.map_nil, List.nil_append]
      rw [← List.map_take, List.take_take, Nat.min_eq_left hj]
    have e1 : (its.take j).filterMap Iter.loss = ((its.take j).map Iter.loss).filterMap id := by
      rw [List.filterMap_map]; rfl
    rw [e1, this, List.filterMap_map]
    simp
  have hfull : r.1.history = (its.take k).filterMap Iter.loss := by
    rw [← hh k le_rfl, List.take_of_length_le]
    have := congrArg List.length h2
    simp only [List.length_map, Callback.init, List.map_nil, List.nil_append, List.length_take] at this
    omega
  refine ⟨k, h1, ?_, ?_⟩
  · intro j hj
    obtain ⟨it, l, g1, g2, g3⟩ := h4 j hj
    refine ⟨it, l, g1, g2, ?_⟩
    rw [← hh j hj.le]
    simpa [Callback.init] using g3
  · rcases h5 with ⟨rfl, h5⟩ | ⟨it, g1, g2, g3⟩
    · cases e with
      | returns x' => exact .inl ⟨rfl, ⟨x', rfl⟩, fun y hy => by cases hy; obtain ⟨c, r⟩ := r; simp at h5; simp [h5]⟩
      | raises =>
        refine .inr (.inl ⟨rfl, rfl, ?_⟩)
        obtain ⟨c, r⟩ := r
        simp only at h5 h3
        simpa [h5] using h3
    · refine .inr (.inr ⟨it, g1, ?_, ?_⟩)
      · rw [← hfull]; exact g2
      · obtain ⟨c, r⟩ := r
        simp only at g3 h3
        simpa [g3] using h3

/-- A NaN loss always stops the fit: nothing from that iteration on is kept. -/
theorem c62_nan_stops (its : List (Iter X L)) (e : Ending X) (es : Int) (x : X) (k : Nat) (it : Iter X L)
    (hk : its[k]? = some it) (hn : it.loss = none) :
    ∃ m, m ≤ k ∧ (fitIter its e es x).1 = lastOf x ((its.take m).map Iter.x) ∧
      ∀ i ∈ its.take m, ∃ l, i.loss = some l := by
  obtain ⟨m, h1, h2, h3⟩ := c62_fit its e es x
  have hlt : k < its.length := (List.getElem?_eq_some_iff.1 hk).1
  have hmk : m ≤ k := by
    by_contra hc
    obtain ⟨i, l, g1, g2, -⟩ := h2 k (by omega)
    rw [hk] at g1
    cases g1
    rw [hn] at g2
    cases g2
  refine ⟨m, hmk, ?_, ?_⟩
  · rcases h3 with ⟨h, -⟩ | ⟨h, -⟩ | ⟨i, -, -, h⟩
    · omega
    · omega
    · exact h
  · intro i hi
    obtain ⟨j, hj, rfl⟩ := List.mem_iff_getElem.1 hi
    rw [List.length_take] at hj
    obtain ⟨i', l, g1, g2, -⟩ := h2 j (by omega)
    refine ⟨l, ?_⟩
    rw [List.getElem_take]
    rw [List.getElem?_eq_getElem (by omega)] at g1
    cases g1
    exact g2

/-- If the recorded losses never increase, early stopping means that the last `es` recorded losses and the current one are
equal.  Missing: losses that increase in between (`c62_window_violated`). -/
theorem c62_early_stopping_partial (es : Int) (h : List L) (loss : L) (hs : Spec.noImprovement es h loss)
    (hmono : (h ++ [loss]).Pairwise (fun a b => b ≤ a)) :
    es.toNat ≤ h.length ∧ ∀ v ∈ h.drop (h.length - es.toNat), v = loss := by
  obtain ⟨h1, h2, v, h3, h4⟩ := hs
  refine ⟨by omega, ?_⟩
  intro w hw
  rw [List.pairwise_append] at hmono
  obtain ⟨m1, -, m2⟩ := hmono
  have hle : loss ≤ w := m2 w (List.mem_of_mem_drop hw) loss (by simp)
  refine le_antisymm ?_ hle
  rw [List.getElem?_reverse (by omega)] at h3
  obtain ⟨hlt, hv⟩ := List.getElem?_eq_some_iff.1 h3
  refine le_trans ?_ (not_lt.1 h4)
  obtain ⟨j, hj, rfl⟩ := List.mem_iff_getElem.1 hw
  rw [List.getElem_drop]
  rw [List.length_drop] at hj
  rw [← hv]
  rcases Nat.eq_zero_or_pos j with rfl | hpos
  · apply le_of_eq
    congr 1
    omega
  · exact List.pairwise_iff_getElem.1 m1 _ _ hlt (by omega) (by omega)

/-- A strictly decreasing loss is never stopped. -/
theorem c62_progress_not_stopped (es : Int) (h : List L) (loss : L) (hmono : ∀ v ∈ h, loss < v) :
    ¬ Spec.noImprovement es h loss := by
  rintro ⟨h1, h2, v, h3, h4⟩
  exact h4 (hmono v (List.mem_reverse.1 (List.mem_of_getElem? h3)))

example : (fitIter [⟨1, some 5⟩, ⟨2, some 4⟩, ⟨3, none⟩, ⟨4, some 1⟩] (.returns 7) 0 (0 : Nat) : Nat × Callback Nat Int).1 = 2 := by
  decide

example : (fitIter [⟨1, some 5⟩, ⟨2, some 4⟩] .raises 0 (0 : Nat) : Nat × Callback Nat Int).1 = 2 := by decide

example : (fitIter [⟨1, some 5⟩, ⟨2, some 4⟩, ⟨3, some 4⟩, ⟨4, some 4⟩, ⟨5, some 4⟩] (.returns 7) 2 (0 : Nat) :
    Nat × Callback Nat Int).1 = 3 := by decide

/-- The comparison looks at a single earlier iteration: the fit stops with `early_stopping = 2` although the iteration
before improved the loss from 9 to 1. -/
theorem c62_window_violated :
    Spec.noImprovement (2 : Int) [10, 9, (1 : Int)] 9 ∧ (1 : Int) < 9 ∧
      (fitIter [⟨1, some 10⟩, ⟨2, some 9⟩, ⟨3, some 1⟩, ⟨4, some 9⟩, ⟨5, some 0⟩] (.returns 7) 2 (0 : Nat) :
        Nat × Callback Nat Int).1 = 3 := by
  refine ⟨⟨by decide, by decide, 9, by decide, by decide⟩, by decide, by decide⟩

end Verif.Scans
