import Verif.Props.CompositeModel

/-
C45: the model without parameters (`Ones`) is neutral in a composite.
-/

namespace Verif.ParamModels

variable {V : Type}

theorem blocks_ones [One V] {α : Type} (nproc : Nat) (a b : List (PModel V)) (f : PModel V → List α)
    (hf : f (onesModel nproc) = []) : blocks (a ++ onesModel nproc :: b) f = blocks (a ++ b) f := by
  simp [blocks, hf]

theorem parts_ones [One V] (nproc : Nat) (param : List V) (full : Bool) (a b : List (PModel V)) (poi pou : Nat)
    (rs : List (Rates V)) (h : computeParts param full poi pou (a ++ b) = .ok rs) :
    ∃ r1 r2 o, rs = r1 ++ r2 ∧ (∀ i p, o.at i p = 1) ∧
      computeParts param full poi pou (a ++ onesModel nproc :: b) = .ok (r1 ++ o :: r2) := by
  have ho : ∀ i p, (⟨1, nproc, fun _ p => (onesCompute nproc).getD p 1⟩ : Rates V).at i p = 1 := by
    intro i p
    simp only [Rates.at, onesCompute]
    rw [List.getD_eq_getElem?_getD, List.getElem?_replicate]
    split <;> (split <;> rfl)
  induction a generalizing poi pou rs with
  | nil =>
    refine ⟨[], rs, _, rfl, ho, ?_⟩
    simp only [List.nil_append] at h ⊢
    show computeParts param full poi pou (onesModel nproc :: b) = _
    simp only [computeParts, onesModel, Nat.lt_irrefl, if_false, gt_iff_lt, Nat.add_zero, h]
  | cons m a ih =>
    simp only [List.cons_append, computeParts] at h ⊢
    split at h
    · exact nomatch h
    · rename_i r hr
      split at h
      · exact nomatch h
      · rename_i rs' hrs
        obtain ⟨r1, r2, o, e, h1, h2⟩ := ih _ _ _ hrs
        refine ⟨r :: r1, r2, o, ?_, h1, ?_⟩
        · rw [← Except.ok.inj h, e]; rfl
        · rw [h2]; rfl

/-- C45.  `Ones` at any place of a composite changes nothing: it is accepted or refused alike, with the same
parameters in the same order, the same defaults, priors and flags, and wherever both give rates they give the same. -/
theorem c45_ones [CommMonoid V] (nproc : Nat) (a b : List (PModel V)) (e : Option Bool) :
    (∀ er, composite (a ++ onesModel nproc :: b) e = .error er ↔ composite (a ++ b) e = .error er) ∧
    ∀ c c', composite (a ++ b) e = .ok c → composite (a ++ onesModel nproc :: b) e = .ok c' →
      c'.npoi = c.npoi ∧ c'.npou = c.npou ∧ c'.params = c.params ∧ c'.xdef = c.xdef ∧ c'.allowNeg = c.allowNeg ∧
      c'.isLinear = c.isLinear ∧ c'.priorSigmas = c.priorSigmas ∧ c'.priorMeans = c.priorMeans ∧
      c'.groups = c.groups ∧
      ∀ x full r r', c.compute x full = .ok r → c'.compute x full = .ok r' → ∀ i p, r'.at i p = r.at i p := by
  have hflags : poiFlags (a ++ onesModel nproc :: b) = poiFlags (a ++ b) := by
    simp [poiFlags, onesModel]
  have hneg : compositeAllowNeg (a ++ onesModel nproc :: b) e = compositeAllowNeg (a ++ b) e := by
    unfold compositeAllowNeg; rw [hflags]
  constructor
  · intro er
    unfold composite
    rw [hneg]
    cases compositeAllowNeg (a ++ b) e <;> simp
  · intro c c' hc hc'
    unfold composite at hc hc'
    rw [hneg] at hc'
    cases hn : compositeAllowNeg (a ++ b) e with
    | error er => rw [hn] at hc; exact nomatch hc
    | ok neg =>
      rw [hn] at hc hc'
      dsimp only at hc hc'
      have hdecl : ((a ++ onesModel nproc :: b).any fun m => m.priorSigmas.isSome) =
          ((a ++ b).any fun m => m.priorSigmas.isSome) := by simp [onesModel]
      have hpoi : ((a ++ onesModel nproc :: b).map (·.npoi)).sum = ((a ++ b).map (·.npoi)).sum := by simp [onesModel]
      have hpou : ((a ++ onesModel nproc :: b).map (·.npou)).sum = ((a ++ b).map (·.npou)).sum := by simp [onesModel]
      have hact : ((a ++ onesModel nproc :: b).filter fun m => decide (m.nparams > 0)) =
          ((a ++ b).filter fun m => decide (m.nparams > 0)) := by
        rw [List.filter_append, List.filter_append, List.filter_cons, if_neg (by simp [onesModel, PModel.nparams])]
      have hgr : mergeGroups (a ++ onesModel nproc :: b) = mergeGroups (a ++ b) := by
        simp [mergeGroups, onesModel]
      have e1 := Except.ok.inj hc
      have e2 := Except.ok.inj hc'
      subst e1; subst e2
      dsimp only
      refine ⟨hpoi, hpou, blocks_ones _ _ _ _ rfl, blocks_ones _ _ _ _ rfl, rfl, ?_, ?_, ?_, hgr, ?_⟩
      · rw [hpoi, hpou, hact]
      · rw [hdecl, blocks_ones _ _ _ _ rfl]
      · rw [hdecl, blocks_ones _ _ _ _ rfl]
      · intro x full r r' hr hr' i p
        rw [hpoi] at hr'
        split at hr
        · exact nomatch hr
        · rename_i rs hrs
          obtain ⟨r1, r2, o, er, ho, hparts⟩ := parts_ones nproc x full a b _ _ rs hrs
          rw [hparts] at hr'
          dsimp only at hr'
          have hprod : ∀ (l : List (Rates V)) (q : Rates V), reduceMul l = .ok q → q.at i p = (l.map (·.at i p)).prod := by
            intro l q hq
            cases l with
            | nil => exact nomatch hq
            | cons r0 rs => rw [foldlM_mul_at rs r0 q hq i p, List.map_cons, List.prod_cons]
          rw [hprod _ _ hr, hprod _ _ hr', er]
          simp [ho]

/-- a composite of one signal strength with and without `Ones` (two processes) -/
example :
    let mu : PModel ℚ := ⟨1, 0, ["sig"], [1], false, false, none, none, [], fun x _ => .ok ⟨1, 2, fun _ p => if p = 0 then x.headD 1 ^ 2 else 1⟩⟩
    ((composite [onesModel 2, mu] none).toOption.bind fun c => (c.compute [3] false).toOption.map fun r => (c.params, r.at 5 0, r.at 5 1)) =
      some (["sig"], 9, 1) := by decide +kernel

end Verif.ParamModels
