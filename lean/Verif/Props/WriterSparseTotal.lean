import Verif.Lemmas.SparseTotal
import Verif.Props.WriterFile
import Verif.Props.WriterTotal

/-!
C98 in sparse mode, and C10 without assumptions on the success of the writing: complete inputs can be written in both modes and give the same
yields.
-/

namespace Verif.Writer

open Verif.Logk M

set_option linter.unusedSectionVars false

section
variable {V : Type} [Field V] [LinearOrder V]

/-- no nuisance is registered both with and without constraint -/
def Spec.oneKind (s : State V) : Prop := ∀ n ∈ s.standard, n ∉ s.noConstraint

theorem fits_thin (op : Op V) (s : State V) (h : Spec.fitsOp s.thin op) : Spec.fitsOp s op := by
  cases op with
  | syst x _ _ _ _ _ _ _ _ _ => cases x <;> exact h
  | _ => exact h

/-- what holds of the history in sparse mode holds of the same history in dense mode -/
theorem back_thin {cfg : Cfg V} (hd : cfg.sparse = false) (ops : List (Op V)) (hp : ∀ op ∈ ops, Spec.plain op) : ∀ s : State V,
    Spec.allOk cfg.toSparse s.thin ops → Spec.freshNames cfg.toSparse s.thin ops → Spec.fitting cfg.toSparse s.thin ops →
    Spec.allOk cfg s ops ∧ Spec.freshNames cfg s ops ∧ Spec.fitting cfg s ops := by
  induction ops with
  | nil => exact fun _ _ _ _ => ⟨trivial, trivial, trivial⟩
  | cons op ops ih =>
    intro s h1 h2 h3
    have hs := sim_step hd op (hp op (by simp)) s
    unfold SimAt at hs
    obtain ⟨a1, a2⟩ := h1
    obtain ⟨b1, b2⟩ := h2
    obtain ⟨c1, c2⟩ := h3
    rw [hs] at a1 a2 b2 c2
    obtain ⟨d1, d2, d3⟩ := ih (fun o ho => hp o (List.mem_cons_of_mem _ ho)) _ a2 b2 c2
    refine ⟨⟨a1, d1⟩, ⟨fun chan hch => b1 chan ?_, d2⟩, fits_thin op s c1, d3⟩
    cases op <;> exact hch

theorem allOk_at {cfg : Cfg V} (ops : List (Op V)) : ∀ s : State V, Spec.allOk cfg s ops →
    ∀ l op r, ops = l ++ op :: r → (step cfg op (runOps cfg s l)).2 = .ok () := by
  induction ops with
  | nil => rintro s _ l op r h; simp at h
  | cons o ops ih =>
    rintro s ⟨h1, h2⟩ l op r h
    cases l with
    | nil => cases h; exact h1
    | cons x l => cases h; exact ih _ h2 l op r rfl

/-- the file in sparse mode, from the one in dense mode -/
theorem sparse_of_dense {cfg : Cfg V} (hd : cfg.sparse = false) {ops : List (Op V)} (hok : Spec.allOk cfg.toSparse {} ops)
    (hf : Spec.freshNames cfg {} ops) (hfit : Spec.fitting cfg {} ops) (hp : ∀ op ∈ ops, Spec.plain op)
    (hc : Spec.complete (run cfg ops)) (hcov : (run cfg ops).covariance = []) (hk : Spec.oneKind (run cfg ops))
    {iter : List String → List String} (hit : ∀ l, (iter l).Perm l) (full : Option (Cov V)) :
    ∃ t lay cells, Written0 cfg.toSparse iter (run cfg.toSparse ops) t lay cells ∧ t.fullCov = full := by
  obtain ⟨t, lay, cells, W, hfull, hdc⟩ := written0_dense hd hf hfit hc hit full
  have hrun := sim_run hd ops hp
  set A := ops.flatMap fun op => (Spec.asks op).map (·.name) with hA
  have hE : Entries A (fun _ _ _ => False) (run cfg.toSparse ops) := entries_runOps cfg.toSparse A ops {}
    ⟨by rintro _ _ _ _ ⟨⟩, by rintro _ _ _ _ ⟨⟩, by rintro _ _ _ ⟨⟩, by rintro _ _ _ ⟨⟩⟩
    (fun op ho b hb => List.mem_flatMap.2 ⟨op, ho, List.mem_map.2 ⟨b, hb, rfl⟩⟩) (allOk_at ops {} hok)
  have hT := sparse_tables cfg.toSparse rfl ops
  have hsym := c07_symmetric_flag cfg.toSparse ops
  obtain ⟨bs, B, _, hbk⟩ := bkSpec_run cfg.toSparse ops
  have hbooked : ∀ m ∈ A, m ∈ (run cfg ops).noConstraint ∨ m ∈ (run cfg ops).standard := by
    intro m hm
    obtain ⟨op, ho, hm⟩ := List.mem_flatMap.1 hm
    obtain ⟨b, hb, rfl⟩ := List.mem_map.1 hm
    obtain ⟨l, r, rfl⟩ := List.append_of_mem ho
    have hb' := hbk b ⟨l, op, r, rfl, hb, allOk_at _ {} hok l op r rfl⟩
    rw [hrun] at B
    cases ht : b.toCov with
    | true =>
      have : b.name ∈ (run cfg (l ++ op :: r)).covariance := (B.covariance _).2 ⟨b, hb', rfl, ht⟩
      rw [hcov] at this
      cases this
    | false => cases hcn : b.o.constrained with
      | true => exact .inr ((B.standard _).2 ⟨b, hb', rfl, ht, hcn⟩)
      | false => exact .inl ((B.noConstraint _).2 ⟨b, hb', rfl, ht, hcn⟩)
  rw [hrun] at B
  have hnd : t.systs.Nodup := by
    rw [W.systs]
    unfold getSysts
    rw [List.nodup_append, (naturalSort_perm _).nodup_iff, (naturalSort_perm _).nodup_iff, (hit _).nodup_iff, (hit _).nodup_iff]
    refine ⟨B.nodup.2.1, B.nodup.1, ?_⟩
    rintro a ha b hb rfl
    rw [(naturalSort_perm _).mem_iff, (hit _).mem_iff] at ha hb
    exact hk a hb ha
  have hcells := mem_cellsOf W.isCells
  have hct : cellsOf (run cfg ops).thin t.procs lay = .ok (cells.map Cell.thin) := by rw [cellsOf_thin, W.isCells]; rfl
  have hcells' := mem_cellsOf hct
  rw [hrun] at hE hT hsym
  generalize run cfg ops = s at *
  obtain ⟨out, hout⟩ : ∃ out, fillSparse t.nbinsfull t.procs.length t.systs s.symmetric (cells.map Cell.thin) = .ok out := by
    refine fillSparse_ok hnd fun c' hc' => ?_
    have hI := (hcells' c').1 hc'
    obtain ⟨c, hcc, rfl⟩ := List.mem_map.1 hc'
    obtain ⟨ac, ha1, ha2⟩ := hI.avg
    obtain ⟨bc, hb1, hb2⟩ := hI.half
    obtain ⟨nc, hn1, hn2⟩ := hI.norm
    have hat : Spec.at2 s.thin.norm c.chan c.proc = some c.norm := by
      unfold Spec.at2
      rw [show s.thin.norm.get? c.chan = some nc from hn1]
      exact hn2
    have hat2 : Spec.at2 s.thin.logkavg c.chan c.proc = some c.thin.avg := by
      unfold Spec.at2
      rw [show s.thin.logkavg.get? c.chan = some ac from ha1]
      exact ha2
    have hbt2 : Spec.at2 s.thin.logkhalf c.chan c.proc = some c.thin.half := by
      unfold Spec.at2
      rw [show s.thin.logkhalf.get? c.chan = some bc from hb1]
      exact hb2
    have havg : ∀ m, Spec.at3 s.thin.logkavg c.chan c.proc m = c.thin.avg.get? m := fun m => by
      unfold Spec.at3; rw [hat2]; rfl
    have hhalf : ∀ m, Spec.at3 s.thin.logkhalf c.chan c.proc m = c.thin.half.get? m := fun m => by
      unfold Spec.at3; rw [hbt2]; rfl
    have D := hdc c hcc
    obtain ⟨l, hl, hlen⟩ := D.norm
    have hbound : ∀ {v : List V} {x : Nat × V}, v.length = c.n → x ∈ nonzeros v → ∀ d, c.thin.norm = .dense d → x.1 < d.length := by
      intro v x hv hx d hd'
      have hd2 : c.norm = .dense d := hd'
      rw [hl] at hd2
      cases hd2
      have := (List.getElem?_eq_some_iff.1 (mem_nonzeros.1 (show (x.1, x.2) ∈ nonzeros v from hx)).1).1
      omega
    have hmemkeys : ∀ {d : Dict String (LogkE V)} {m : String}, m ∈ Dict.keys d → ∃ e, d.get? m = some e := by
      intro d m hm
      rw [Dict.mem_keys_iff_has] at hm
      cases hg : d.get? m with
      | some e => exact ⟨e, rfl⟩
      | none => rw [(Dict.has_eq_false_iff _ _).2 hg] at hm; cases hm
    refine ⟨⟨l, hl, by have := D.bound; show c.start + l.length ≤ _; omega⟩, (List.getElem?_eq_some_iff.1 hI.proc).1, ?_, ?_,
      hE.ndAvg _ _ _ hat2, hE.ndHalf _ _ _ hbt2, ?_, ?_, ?_⟩
    · intro m e he
      obtain ⟨n, hn, v, rfl, _, hfit'⟩ := hT.avg _ _ _ _ ((havg m).trans he)
      rw [hat] at hn
      cases hn
      refine ⟨v, rfl, hfit', ?_⟩
      have he' : (mapV LogkE.thin c.avg).get? m = some (.sparse v) := he
      rw [mapV_get?] at he'
      cases hg : c.avg.get? m with
      | none => rw [hg] at he'; cases he'
      | some e0 =>
        obtain ⟨w, rfl, hw⟩ := D.avg m e0 hg
        rw [hg] at he'
        cases he'
        exact fun x hx => hbound hw hx
    · intro m e he
      obtain ⟨n, hn, v, rfl, _, hfit'⟩ := hT.half _ _ _ _ ((hhalf m).trans he)
      rw [hat] at hn
      cases hn
      refine ⟨v, rfl, hfit', ?_⟩
      have he' : (mapV LogkE.thin c.half).get? m = some (.sparse v) := he
      rw [mapV_get?] at he'
      cases hg : c.half.get? m with
      | none => rw [hg] at he'; cases he'
      | some e0 =>
        obtain ⟨w, rfl, hw⟩ := D.half m e0 hg
        rw [hg] at he'
        cases he'
        exact fun x hx => hbound hw hx
    · intro m hm
      obtain ⟨e, he⟩ := hmemkeys hm
      rw [W.systs, mem_getSysts iter hit]
      exact hbooked m (hE.named _ _ _ _ ((havg m).trans he))
    · intro m hm
      obtain ⟨e, he⟩ := hmemkeys hm
      have := (hE.half _ _ _ _ ((hhalf m).trans he)).elim id False.elim
      rw [havg] at this
      rw [Dict.mem_keys_iff_has]
      by_contra hno
      exact this ((Dict.has_eq_false_iff _ _).1 (by rwa [Bool.not_eq_true] at hno))
    · intro hs
      have h0 := hsym hs c.chan c.proc
      cases hh : c.thin.half with
      | nil => rfl
      | cons x d =>
        have := h0 x.1
        rw [hhalf, hh] at this
        simp [Dict.get?] at this
  refine ⟨{ t with body := .sparse out }, lay, cells.map Cell.thin, ?_, hfull⟩
  rw [hrun]
  exact ⟨W.procs, W.nbins, W.nbinsfull, W.layout, hct, by rw [fillSumw_thin]; exact W.sumw, by rw [fillSumw2_thin]; exact W.sumw2, W.obs, W.var,
    W.pseudo, W.systs, by
      show fillBody true _ _ _ _ _ = _
      unfold fillBody
      rw [if_pos rfl]
      show (fillSparse t.nbinsfull t.procs.length t.systs s.symmetric (cells.map Cell.thin)).map Body.sparse = _
      rw [hout]; rfl, W.noi, W.groups, W.weights, W.signals, W.noConstraint, W.pseudoNames, W.channelInfo, W.symmetric⟩

theorem write_sparse {cfg : Cfg V} (hd : cfg.sparse = false) (hb : cfg.addBBB = false) {ops : List (Op V)}
    (hok : Spec.allOk cfg.toSparse {} ops)
    (hf : Spec.freshNames cfg {} ops) (hfit : Spec.fitting cfg {} ops) (hp : ∀ op ∈ ops, Spec.plain op)
    (hc : Spec.complete (run cfg ops)) (hcov : (run cfg ops).covariance = []) (hk : Spec.oneKind (run cfg ops))
    {iter : List String → List String} (hit : ∀ l, (iter l).Perm l) :
    ∃ t, (write cfg.toSparse iter (run cfg.toSparse ops)).2 = .ok t := by
  obtain ⟨t, lay, cells, W, hfull⟩ := sparse_of_dense hd hok hf hfit hp hc hcov hk hit (run cfg.toSparse ops).dataCov
  have hcov' : (run cfg.toSparse ops).covariance = [] := by rw [sim_run hd ops hp]; exact hcov
  have hnil : iter (run cfg.toSparse ops).covariance = [] := by
    have := hit (run cfg.toSparse ops).covariance
    rw [hcov'] at this ⊢
    exact List.perm_nil.1 this
  refine ⟨t, congrArg Prod.snd (write_of (s' := { run cfg.toSparse ops with dataCov := (run cfg.toSparse ops).dataCov })
    (c := (run cfg.toSparse ops).dataCov) W ?_ ?_)⟩
  · unfold initCov
    rw [hcov', show cfg.toSparse.addBBB = false from hb]
    simp
  · rw [hnil, show cfg.toSparse.addBBB = false from hb, cov_plain, hfull]

/-- C98, sparse tensors: after any history of accepted calls (dense histograms of the size of their channels, distinct names of channels), a
complete input without nuisances in the data covariance, and in which no nuisance is both constrained and unconstrained, can be written. Each
condition is needed: see `c98_sparse_violated`, `c98_refused_violated` and `c98_kinds_violated`. -/
theorem c98_sparse_partial (cfg : Cfg V) (hsp : cfg.sparse = true) (hb : cfg.addBBB = false) (ops : List (Op V))
    (hok : Spec.allOk cfg {} ops) (hf : Spec.freshNames cfg {} ops) (hfit : Spec.fitting cfg {} ops)
    (hp : ∀ op ∈ ops, Spec.plain op) (hc : Spec.complete (run cfg ops)) (hcov : (run cfg ops).covariance = [])
    (hk : Spec.oneKind (run cfg ops)) (iter : List String → List String) (hit : ∀ l, (iter l).Perm l) :
    ∃ t, (write cfg iter (run cfg ops)).2 = .ok t := by
  have hcfg : ({ cfg with sparse := false } : Cfg V).toSparse = cfg := by
    unfold Cfg.toSparse
    cases cfg
    cases hsp
    rfl
  have hd : ({ cfg with sparse := false } : Cfg V).sparse = false := rfl
  have hb' : ({ cfg with sparse := false } : Cfg V).addBBB = false := hb
  generalize ({ cfg with sparse := false } : Cfg V) = cfg0 at hcfg hd hb'
  subst hcfg
  obtain ⟨_, h2, h3⟩ := back_thin hd ops hp {} hok hf hfit
  have hrun := sim_run hd ops hp
  rw [hrun] at hc hcov hk
  exact write_sparse hd hb' hok h2 h3 hp ⟨hc.kinds, hc.data, hc.pseudo⟩ hcov hk hit

theorem allOk_thin {cfg : Cfg V} (hd : cfg.sparse = false) (ops : List (Op V)) (hp : ∀ op ∈ ops, Spec.plain op) : ∀ s : State V,
    Spec.allOk cfg s ops → Spec.allOk cfg.toSparse s.thin ops := by
  induction ops with
  | nil => exact fun _ _ => trivial
  | cons op ops ih =>
    rintro s ⟨h1, h2⟩
    have hs := sim_step hd op (hp op (by simp)) s
    unfold SimAt at hs
    refine ⟨by rw [hs]; exact h1, ?_⟩
    rw [hs]
    exact ih (fun o ho => hp o (List.mem_cons_of_mem _ ho)) _ h2

end

/-- C98 is violated in sparse mode by a nuisance that is constrained for one process and not for another: it has two columns, its variations are
stored in both, and the check of the number of stored values fails. In dense mode the same input is written. -/
theorem c98_kinds_violated : ∃ (cfg : Cfg ℚ) (ops : List (Op ℚ)), cfg.sparse = false ∧ cfg.addBBB = false ∧
    Spec.allOk cfg {} ops ∧ Spec.freshNames cfg {} ops ∧ Spec.fitting cfg {} ops ∧ (∀ op ∈ ops, Spec.plain op) ∧
    Spec.complete (run cfg ops) ∧ (run cfg ops).covariance = [] ∧ (write cfg id (run cfg ops)).2.isOk = true ∧
    (write cfg.toSparse id (run cfg.toSparse ops)).2 = .error .assertion := by
  let ops : List (Op ℚ) := [.channel [Ex.ax 2] (some "a") false false,
    .process (Ex.h [1, 2]) "p" "a" true none, .process (Ex.h [2, 2]) "q" "a" false none, .data (Ex.h [2, 3]) "a" none,
    .syst (.single (Ex.h [2, 3])) "n" "p" "a" 1 true .average false false {},
    .syst (.single (Ex.h [2, 3])) "n" "q" "a" 1 true .average false false { constrained := false }]
  have hg := Ex.goodB_iff Ex.cfg ops {} (by decide +kernel)
  refine ⟨Ex.cfg, ops, rfl, rfl, Ex.allOkB_iff _ _ _ (by decide +kernel), hg.1, hg.2, ?_, Ex.completeB_iff (by decide +kernel),
    by decide +kernel, by decide +kernel, Ex.isErr_iff (by decide +kernel)⟩
  simp [ops, Spec.plain, Ex.h, HIn.isSparse]

/-- C10, from the calls to the yields, without assumptions on the writing: a complete input, all calls of which are accepted, can be written
in both modes, and the fitter computes the same yields from the two files. -/
theorem c10_complete_partial (cfg : Cfg ℝ) (hd : cfg.sparse = false) (hb : cfg.addBBB = false) (ops : List (Op ℝ))
    (hok : Spec.allOk cfg {} ops) (hf : Spec.freshNames cfg {} ops) (hfit : Spec.fitting cfg {} ops)
    (hp : ∀ op ∈ ops, Spec.plain op) (hc : Spec.complete (run cfg ops)) (hcov : (run cfg ops).covariance = [])
    (hk : Spec.oneKind (run cfg ops)) (iter : List String → List String) (hit : ∀ l, (iter l).Perm l) :
    ∃ t t', (write cfg iter (run cfg ops)).2 = .ok t ∧ (write cfg.toSparse iter (run cfg.toSparse ops)).2 = .ok t' ∧
      ∀ (full : Bool) (nparams : Nat) (rinit r : Yields.Rates),
        (r.rows = 1 ∨ (r.rows = t.nbinsfull ∧ (full = true ∨ t.nbinsfull = t.nbins))) → ∀ θ : Nat → ℝ,
        ∃ n n' y y', t.yields cfg.systType full nparams rinit r θ = .ok (n, y) ∧
          t'.yields cfg.systType full nparams rinit r θ = .ok (n', y') ∧
          ∀ b < (if full then t.nbinsfull else t.nbins), n b = n' b ∧ ∀ p < t.procs.length, y b p = y' b p := by
  obtain ⟨t, ht⟩ := c98_dense_partial cfg hd hb ops hf hfit hc hcov iter hit
  obtain ⟨t', ht'⟩ := write_sparse hd hb (allOk_thin hd ops hp {} hok) hf hfit hp hc hcov hk hit
  exact ⟨t, t', ht, ht', fun full nparams rinit r hr θ =>
    c10_file_partial cfg hd ops hf hfit hp iter t t' ht ht' full nparams rinit r hr θ⟩

/-! ### Concrete cases -/

/-- The hypotheses of `c98_sparse_partial` are met by a history with two channels and systematics of several kinds. -/
example :
    let cfg : Cfg ℚ := { Ex.cfg with sparse := true }
    let ops : List (Op ℚ) := [.channel [Ex.ax 2] (some "a") false false, .channel [Ex.ax 3] (some "m") true false,
      .process (Ex.h [1, 0]) "p" "a" true none, .process (Ex.h [2, 2]) "q" "a" false none, .process (Ex.h [0, 2, 1]) "q" "m" false none,
      .data (Ex.h [2, 3]) "a" none,
      .syst (.pair (Ex.h [2, 3]) (Ex.h [1, 1])) "n" "p" "a" 1 true .none false false {},
      .syst (.single (Ex.h [2, 3])) "n" "q" "a" 1 true .average false false {},
      .syst (.pair (Ex.h [2, 3]) (Ex.h [1, 1])) "l" "q" "a" 1 true .quadratic false true {},
      .normSyst "o" ["q"] "m" [.num 2] false .average { constrained := false }]
    ∃ t, (write cfg List.reverse (run cfg ops)).2 = .ok t := by
  intro cfg ops
  have hg := Ex.goodB_iff cfg ops {} (by decide +kernel)
  refine c98_sparse_partial cfg rfl rfl ops (Ex.allOkB_iff _ _ _ (by decide +kernel)) hg.1 hg.2 ?_ (Ex.completeB_iff (by decide +kernel))
    (by decide +kernel) (by unfold Spec.oneKind; decide +kernel) _ fun l => l.reverse_perm
  simp [ops, Spec.plain, Ex.h, HIn.isSparse]

namespace Ex

/-- real histograms -/
noncomputable def hr (l : List ℝ) : HIn ℝ := .hist [ax l.length] (fun _ => l.map .fin) (fun _ => l.map .fin)

noncomputable def cfgR : Cfg ℝ := ⟨⟨Real.log, -7, 7 / 4⟩, false, .normal, true, false, fun a b => a.bins == b.bins⟩

/-- two processes, one of them with an empty bin, an asymmetric and a symmetric nuisance -/
noncomputable def opsR : List (Op ℝ) := [.channel [ax 2] (some "a") false false,
  .process (hr [1, 0]) "p" "a" true none, .process (hr [2, 2]) "q" "a" false none, .data (hr [2, 3]) "a" none,
  .syst (.pair (hr [2, 3]) (hr [1, 1])) "n" "p" "a" 1 true .none false false {},
  .syst (.single (hr [2, 3])) "n" "q" "a" 1 true .average false false {}]

theorem hr_vars (flow : Bool) (a b : ℝ) (ha : 0 ≤ a) (hb : 0 ≤ b) : (hr [a, b]).flatVars flow = .ok [.fin a, .fin b] := by
  unfold HIn.flatVars hr
  dsimp only
  rw [if_neg]
  · rfl
  · simp [FVal.neg, not_lt.2 ha, not_lt.2 hb]

theorem hr_sumw2 (flow : Bool) (a b : ℝ) (ha : 0 ≤ a) (hb : 0 ≤ b) : procSumw2 (hr [a, b]) none flow = .ok [a, b] := by
  unfold procSumw2
  dsimp only
  rw [hr_vars flow a b ha hb]
  rfl

theorem opsR_good : goodB cfgR {} opsR = true := by
  simp only [goodB, opsR, step, addProcess, addData, fitsB, sizeB, optB, Option.getD_none, hr_vars _ 1 0 one_pos.le le_rfl, hr_sumw2 _ 1 0 one_pos.le le_rfl,
    hr_vars _ 2 2 two_pos.le two_pos.le, hr_sumw2 _ 2 2 two_pos.le two_pos.le, hr_vars _ 2 3 two_pos.le three_pos.le,
    hr_vars _ 1 1 one_pos.le one_pos.le]
  decide +kernel

theorem opsR_ok : allOkB cfgR {} opsR = true := by
  simp only [allOkB, opsR, step, addProcess, addData, Option.getD_none, hr_sumw2 _ 1 0 one_pos.le le_rfl,
    hr_sumw2 _ 2 2 two_pos.le two_pos.le, hr_vars _ 2 3 two_pos.le three_pos.le]
  decide +kernel

theorem opsR_state : (completeB (run cfgR opsR) && ((run cfgR opsR).covariance == []) &&
    (run cfgR opsR).standard.all fun n => decide (n ∉ (run cfgR opsR).noConstraint)) = true := by
  simp only [run, runOps, opsR, step, addProcess, addData, Option.getD_none, hr_sumw2 _ 1 0 one_pos.le le_rfl,
    hr_sumw2 _ 2 2 two_pos.le two_pos.le, hr_vars _ 2 3 two_pos.le three_pos.le]
  decide +kernel

end Ex

/-- The hypotheses of `c10_complete_partial` are met. -/
example : ∃ t t', (write Ex.cfgR id (run Ex.cfgR Ex.opsR)).2 = .ok t ∧
    (write Ex.cfgR.toSparse id (run Ex.cfgR.toSparse Ex.opsR)).2 = .ok t' ∧ ∀ θ : Nat → ℝ, ∃ n n' y y',
      t.yields .normal true 1 ⟨1, fun _ _ => 1⟩ ⟨1, fun _ p => if p = 0 then θ 0 else 1⟩ θ = .ok (n, y) ∧
      t'.yields .normal true 1 ⟨1, fun _ _ => 1⟩ ⟨1, fun _ p => if p = 0 then θ 0 else 1⟩ θ = .ok (n', y') ∧
      ∀ b < t.nbinsfull, n b = n' b ∧ ∀ p < t.procs.length, y b p = y' b p := by
  have hg := Ex.goodB_iff Ex.cfgR Ex.opsR {} Ex.opsR_good
  have hs := Ex.opsR_state
  rw [Bool.and_eq_true, Bool.and_eq_true] at hs
  obtain ⟨t, t', h1, h2, h3⟩ := c10_complete_partial Ex.cfgR rfl rfl Ex.opsR (Ex.allOkB_iff _ _ _ Ex.opsR_ok) hg.1 hg.2
    (by simp [Ex.opsR, Spec.plain, Ex.hr, HIn.isSparse]) (Ex.completeB_iff hs.1.1) (by simpa using hs.1.2)
    (by simpa [Spec.oneKind] using hs.2) id fun l => .refl l
  exact ⟨t, t', h1, h2, fun θ => h3 true 1 _ _ (.inl rfl) θ⟩

end Verif.Writer
