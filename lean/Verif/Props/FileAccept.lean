import Verif.Props.FileFit
import Verif.Props.WriterAccept

/-!
C107: A well-formed and complete history of calls gives a file, and the loss built from it is the likelihood that the calls describe.
-/

namespace Verif.FileFit

open Verif.Writer FitParams

noncomputable section

/-- C107: For a well-formed and complete history that describes an analysis on paper no call raises, the file is written, and at
every point the loss built from it is the negative logarithm of the likelihood of that analysis, up to one constant. -/
theorem c107_likelihood (cfg : Writer.Cfg ℝ) (hn : cfg.num = Yields.num) (hd : cfg.sparse = false) (hst : cfg.systType = .logNormal)
    (hb : cfg.addBBB = false) (ops : List (Op ℝ)) (hw : Writer.Spec.wellFormed cfg .empty ops)
    (hf : (Writer.Spec.Book.notes .empty ops).full) (hcov : ∀ op ∈ ops, Writer.Spec.noCov op) (hcon : Writer.Spec.consistent ops)
    (A : Spec.Analysis) (D : Spec.Describes cfg.allowNeg ops A) (iter : List String → List String) (hit : ∀ l, (iter l).Perm l)
    (xdef : List ℝ) (neg : Bool) :
    Writer.Spec.allOk cfg {} ops ∧ ∃ t, (write cfg iter (run cfg ops)).2 = .ok t ∧ t.fullCov = Writer.Spec.givenCov ops ∧
      ∃ C, ∀ x, (ofFile t .logNormal xdef neg).loss x =
        .ok (some (A.nll (Spec.strength t neg (List.ofFn x)) (Spec.nuisance t (List.ofFn x)) + C)) := by
  have ht : cfg.systType ≠ .other := by rw [hst]; decide
  obtain ⟨h1, h2, h3, _⟩ := history_run hd ht hw
  obtain ⟨t, h4, h5⟩ := c107_written cfg hd ht hb ops hw hf hcov iter hit
  exact ⟨h1, t, h4, h5, c103_likelihood cfg ops iter t A ⟨hn, hd, h2, h3, h4⟩ h1 hst hit hcon D xdef neg⟩

namespace Ex

theorem agrees_hr (l : List ℝ) (m f : Bool) (n : Nat) (hn : n = l.length) :
    Writer.Spec.agrees cfgL ⟨[Writer.Ex.ax n], m, f⟩ (Writer.Ex.hr l) := by
  subst hn
  exact .cons (by simp [cfgL]) .nil

theorem perBin_hr (l : List ℝ) (m f flow : Bool) (n : Nat) (hn : n = l.length) :
    Writer.Spec.perBin ⟨[Writer.Ex.ax n], m, f⟩ flow (Writer.Ex.hr l) := by
  subst hn
  have e : Writer.prod (dims flow [Writer.Ex.ax l.length]) = l.length := by
    cases flow <;> simp [Writer.prod, dims, Writer.Ex.ax, Axis.extent, Axis.off]
  exact ⟨by rw [e]; exact List.length_map _, by rw [e]; exact List.length_map _⟩

theorem numbers_hr (l : List ℝ) (flow : Bool) : Writer.Spec.numbers ((Writer.Ex.hr l).flatVals flow) := fun x hx => by
  obtain ⟨v, _, rfl⟩ := List.mem_map.1 (show x ∈ l.map FVal.fin from hx)
  exact ⟨v, rfl⟩

theorem variances_hr (l : List ℝ) (flow : Bool) (h0 : ∀ v ∈ l, 0 ≤ v) : Writer.Spec.variances (Writer.Spec.ownVars flow (Writer.Ex.hr l)) :=
  fun x hx => by
    obtain ⟨v, hv, rfl⟩ := List.mem_map.1 (show x ∈ l.map FVal.fin from hx)
    exact ⟨v, rfl, h0 v hv⟩

open Writer.Ex in
theorem wellL : Writer.Spec.wellFormed cfgL .empty opsL := by
  refine ⟨⟨⟨"m", rfl, rfl⟩, by simp⟩, ⟨⟨"a", rfl, by simp [Writer.Spec.Book.note, Writer.Spec.Book.empty]⟩, by simp⟩,
    ⟨by simp [Writer.Spec.Book.note, Writer.Spec.Book.empty], ⟨[ax 2], false, false⟩, by simp [Writer.Spec.Book.note], agrees_hr _ _ _ _ rfl,
      perBin_hr _ _ _ _ _ rfl, numbers_hr _ _, by simp, variances_hr _ _ (by simp)⟩,
    ⟨by simp [Writer.Spec.Book.note, Writer.Spec.Book.empty], ⟨[ax 2], false, false⟩, by simp [Writer.Spec.Book.note], agrees_hr _ _ _ _ rfl,
      perBin_hr _ _ _ _ _ rfl, numbers_hr _ _, by simp, variances_hr _ _ (by simp)⟩,
    ⟨by simp [Writer.Spec.Book.note, Writer.Spec.Book.empty], ⟨[ax 2], true, false⟩, by simp [Writer.Spec.Book.note], agrees_hr _ _ _ _ rfl,
      perBin_hr _ _ _ _ _ rfl, numbers_hr _ _, by simp, variances_hr _ _ (by simp)⟩,
    ⟨by simp [Writer.Spec.Book.note, Writer.Spec.Book.empty], ⟨[ax 2], false, false⟩, by simp [Writer.Spec.Book.note], agrees_hr _ _ _ _ rfl,
      perBin_hr _ _ _ _ _ rfl, by simp, variances_hr _ _ (by simp)⟩,
    ⟨by simp [Writer.Spec.Book.note], by simp, ⟨[ax 2], false, false⟩, by simp [Writer.Spec.Book.note],
      ⟨agrees_hr _ _ _ _ rfl, perBin_hr _ _ _ _ _ rfl, numbers_hr _ _⟩, agrees_hr _ _ _ _ rfl, perBin_hr _ _ _ _ _ rfl, numbers_hr _ _⟩,
    ⟨by simp [Writer.Spec.Book.note], by simp, rfl, ⟨[ax 2], false, false⟩, by simp [Writer.Spec.Book.note], agrees_hr _ _ _ _ rfl,
      perBin_hr _ _ _ _ _ rfl, numbers_hr _ _⟩,
    ⟨by simp [Writer.Spec.Book.note], by simp, rfl, ⟨[ax 2], true, false⟩, by simp [Writer.Spec.Book.note], agrees_hr _ _ _ _ rfl,
      perBin_hr _ _ _ _ _ rfl, numbers_hr _ _⟩,
    ⟨by simp [Writer.Spec.Book.note], by simp, by simp, ?_⟩, trivial⟩
  intro u hu
  simp only [List.mem_cons, List.not_mem_nil, or_false] at hu
  rcases hu with rfl | rfl <;> exact .inl ⟨_, rfl⟩

theorem fullL : (Writer.Spec.Book.notes .empty opsL).full := by
  refine ⟨fun p => ?_, fun chan c hc hm => ?_, fun chan c hc hm chan' n hp => ?_⟩
  · simp [Writer.Spec.Book.notes, opsL, Writer.Spec.Book.note, Writer.Spec.Book.empty]
    rintro rfl
    decide
  · simp only [Writer.Spec.Book.notes, opsL, Writer.Spec.Book.note, Writer.Spec.Book.empty, List.foldl_cons, List.foldl_nil] at hc ⊢
    split at hc
    · rename_i h
      exact .inl (Option.some.inj h).symm
    · split at hc
      · cases hc
        cases hm
      · cases hc
  · exact hp.elim

end Ex

/-- The hypotheses of `c107_likelihood` are met by the history of the example of C103. -/
example : Writer.Spec.allOk Ex.cfgL {} Ex.opsL ∧ ∃ t C, (write Ex.cfgL id (run Ex.cfgL Ex.opsL)).2 = .ok t ∧
    ∀ x, (ofFile t .logNormal [1] true).loss x =
      .ok (some (Ex.paper.nll (Spec.strength t true (List.ofFn x)) (Spec.nuisance t (List.ofFn x)) + C)) := by
  obtain ⟨h, t, h1, _, C, h2⟩ := c107_likelihood Ex.cfgL rfl rfl rfl rfl Ex.opsL Ex.wellL Ex.fullL (by simp [Ex.opsL, Writer.Spec.noCov])
    Ex.consistentL Ex.paper Ex.describesL id (fun l => .refl l) [1] true
  exact ⟨h, t, C, h1, h2⟩

end

end Verif.FileFit
