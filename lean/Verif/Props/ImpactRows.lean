import Verif.Props.Impacts

/-
C39: the rows of the global impact tables.
-/

namespace Verif.Impacts

variable {n : ℕ}

/-- C39, global impacts: the rows are taken from the parameters that the labels name: row `r` holds the row of the
parameter it reports (any kind of row), and the table has as many rows as labels.  A parameter of interest whose
number is out of range is refused. -/
theorem c39_global_rows {α : Type} (v : Fin n → α) (parms : Fin n → String) (npoi nmodel : ℕ) (noi : List ℕ)
    (hp : npoi ≤ n) :
    ((∀ k ∈ noi, nmodel + k < n) → ∃ rows, gatherRows (List.ofFn v) noi npoi nmodel = .ok rows ∧
      rows.length = (rowLabels (List.ofFn parms) npoi nmodel noi).length ∧
      ∀ r i, Spec.reports npoi nmodel noi r i →
        rows[r]? = some (v i) ∧ (rowLabels (List.ofFn parms) npoi nmodel noi)[r]? = some (parms i)) ∧
    ((∃ k ∈ noi, n ≤ nmodel + k) → gatherRows (List.ofFn v) noi npoi nmodel = .error .exception) := by
  constructor
  · intro hall
    have hm : ∀ l : List ℕ, (∀ k ∈ l, nmodel + k < n) →
        ∃ rs, (l.mapM fun k => ((List.ofFn v).drop nmodel)[k]?) = some rs ∧ rs.length = l.length ∧
          ∀ (s k : ℕ) (i : Fin n), l[s]? = some k → i.val = nmodel + k → rs[s]? = some (v i) := by
      intro l
      induction l with
      | nil => intro _; exact ⟨[], rfl, rfl, by simp⟩
      | cons k l ih =>
        intro hl
        obtain ⟨rs, h1, h2, h3⟩ := ih fun k hk => hl k (List.mem_cons_of_mem _ hk)
        have hk : nmodel + k < n := hl k List.mem_cons_self
        have e : ((List.ofFn v).drop nmodel)[k]? = some (v ⟨nmodel + k, hk⟩) := by
          rw [List.getElem?_drop, List.getElem?_ofFn, dif_pos hk]
        refine ⟨v ⟨nmodel + k, hk⟩ :: rs, by rw [List.mapM_cons, e, h1]; rfl, by simp [h2], ?_⟩
        intro s k' i hs hi
        cases s with
        | zero =>
          simp only [List.getElem?_cons_zero, Option.some.injEq] at hs ⊢
          subst hs
          congr 1
          exact Fin.ext hi.symm
        | succ s => exact h3 s k' i hs hi
    obtain ⟨rs, h1, h2, h3⟩ := hm noi hall
    have hlen : (List.take npoi (List.ofFn v)).length = npoi := by simp [hp]
    refine ⟨_, by unfold gatherRows; rw [h1], ?_, fun r i hr => ⟨?_, c39_rows parms npoi nmodel noi hp r i hr⟩⟩
    · simp [rowLabels, h2]
    · rcases hr with ⟨hr, hi⟩ | ⟨s, k, rfl, hs, hi⟩
      · rw [List.getElem?_append_left (by omega), List.getElem?_take_of_lt hr]
        subst hi; simp
      · rw [List.getElem?_append_right (by omega), hlen, Nat.add_sub_cancel_left]
        exact h3 s k i hs hi
  · rintro ⟨k, hk, hn⟩
    have : (noi.mapM fun k => ((List.ofFn v).drop nmodel)[k]?) = none := by
      have e : ((List.ofFn v).drop nmodel)[k]? = none := by
        rw [List.getElem?_eq_none_iff, List.length_drop, List.length_ofFn]; omega
      clear hp
      induction noi with
      | nil => exact nomatch hk
      | cons k' noi ih =>
        rw [List.mapM_cons]
        rcases List.mem_cons.1 hk with rfl | hk
        · rw [e]; rfl
        · rw [ih hk]
          cases ((List.ofFn v).drop nmodel)[k']? <;> rfl
    unfold gatherRows
    rw [this]

/-- one POI, one other model parameter, three systematics, of which the second is of interest -/
example : Spec.reports (n := 5) 1 2 [1] 1 3 ∧ (∀ k ∈ [1], 2 + k < 5) ∧
    gatherRows (List.ofFn (n := 5) fun i => i.val * 10) [1] 1 2 = .ok [0, 30] :=
  ⟨.inr ⟨0, 1, rfl, rfl, rfl⟩, by decide, by decide⟩

end Verif.Impacts
