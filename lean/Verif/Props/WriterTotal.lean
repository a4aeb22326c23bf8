import Verif.Lemmas.WriteTotal

/-!
C98: which inputs can be written. A complete input whose histograms have the number of bins of their channels can be
written; what a successful `write` needs; and complete inputs that cannot be written.
-/

namespace Verif.Writer

open Verif.Logk M

set_option linter.unusedSectionVars false

variable {V : Type} [Field V] [LinearOrder V]

/-! ### Specification -/

/-- nothing is missing: every fitted channel has its data with variances and every set of pseudo-data, and no process is
both a signal and a background -/
structure Spec.complete (s : State V) : Prop where
  kinds : ∀ p ∈ s.signals, p ∉ s.bkgs
  data : ∀ chan c, s.channels.get? chan = some c → c.masked = false →
    s.dataObs.get? chan ≠ none ∧ s.dataVar.get? chan ≠ none
  pseudo : ∀ chan c, s.channels.get? chan = some c → c.masked = false →
    ∀ n ∈ s.pseudoNames, Spec.at2 s.pseudo chan n ≠ none

/-- every call of the history is accepted -/
def Spec.allOk (cfg : Cfg V) : State V → List (Op V) → Prop
  | _, [] => True
  | s, op :: ops => (step cfg op s).2 = .ok () ∧ Spec.allOk cfg (step cfg op s).1 ops

/-! ### Complete inputs -/

theorem written0_dense {cfg : Cfg V} (hd : cfg.sparse = false) {ops : List (Op V)} (hf : Spec.freshNames cfg {} ops)
    (hfit : Spec.fitting cfg {} ops) (hc : Spec.complete (run cfg ops)) {iter : List String → List String}
    (hit : ∀ l, (iter l).Perm l) (full : Option (Cov V)) :
    ∃ t lay cells, Written0 cfg iter (run cfg ops) t lay cells ∧ t.fullCov = full ∧
      ∀ c ∈ cells, DenseCell t.nbinsfull c := by
  have hl := layInv_run cfg ops hf
  have hs := sized_run hd ops hf hfit
  have hcomp : Complete (run cfg ops) := ⟨hs.outer, fun c p n h => by
    obtain ⟨_, w, _, hw, _⟩ := hs.sumw2 c p n h; exact ⟨w, hw⟩, ready_run cfg ops⟩
  obtain ⟨⟨groups, hg⟩, noi, hnoi⟩ := c06_resolves cfg ops iter hit
  generalize run cfg ops = s at *
  obtain ⟨procs, nbins, lay, cells, w, h1, h2, h3, h4, h5, h6, h7⟩ := frame_ok iter hl hcomp hc.kinds
  have hcells : ∀ c ∈ cells, DenseCell (nbinsFull s.nbinschan) c := fun c hcc =>
    denseCell_of hs (fun sl hsl => ⟨(h6 sl hsl).1, (h6 sl hsl).2.1, (h6 sl hsl).2.2.1⟩) (h7 c hcc)
  have hsz : ∀ {l : List (FVal V)} {c ch}, s.channels.get? c = some ch → ch.masked = false →
      (∃ ch', s.channels.get? c = some ch' ∧ l.length = prod (dims false ch'.axes)) → l.length = chSize ch := by
    rintro l c ch hch hm ⟨ch', h1, h2⟩
    rw [hch] at h1
    cases h1
    unfold chSize
    rw [hs.noFlow c ch hch hm]; exact h2
  obtain ⟨⟨sumw, e1⟩, ⟨sumw2, e2⟩, body, e3⟩ := fillDense_ok (nproc := procs.length) (systs := getSysts iter s)
    (symmetric := s.symmetric) hcells
  obtain ⟨obs, e4⟩ := fillData_ok (nbins := nbins) (d := s.dataObs) (lay := lay) fun sl hsl hm => by
    obtain ⟨k1, k2, _, k4⟩ := h6 sl hsl
    obtain ⟨l, hl⟩ := Option.ne_none_iff_exists'.1 (hc.data _ _ k1 hm).1
    exact ⟨k4 hm, l, hl, (hsz k1 hm (hs.obs _ _ hl)).trans k2.symm⟩
  obtain ⟨var, e5⟩ := fillData_ok (nbins := nbins) (d := s.dataVar) (lay := lay) fun sl hsl hm => by
    obtain ⟨k1, k2, _, k4⟩ := h6 sl hsl
    obtain ⟨l, hl⟩ := Option.ne_none_iff_exists'.1 (hc.data _ _ k1 hm).2
    exact ⟨k4 hm, l, hl, (hsz k1 hm (hs.var _ _ hl)).trans k2.symm⟩
  obtain ⟨ps, e6⟩ := fillPseudo_ok (nbins := nbins) (names := iter s.pseudoNames) (d := s.pseudo) (lay := lay)
    fun sl hsl hm => by
      obtain ⟨k1, k2, _, k4⟩ := h6 sl hsl
      refine ⟨k4 hm, fun n hn => ?_⟩
      obtain ⟨l, hl⟩ := Option.ne_none_iff_exists'.1 (hc.pseudo _ _ k1 hm n ((hit _).mem_iff.1 hn))
      exact ⟨l, hl, (hsz k1 hm (hs.pseudo _ _ _ hl)).trans k2.symm⟩
  exact ⟨⟨procs, sortedNames s.signals, getSysts iter s, naturalSort (iter s.noConstraint), groups, noi,
      iter s.pseudoNames, w, s.channels, s.symmetric, nbins, nbinsFull s.nbinschan, obs, var, ps, sumw, sumw2, body, full⟩,
    lay, cells, ⟨h1, h2, rfl, h3, h4, e1, e2, e4, e5, e6, rfl, by rw [hd]; exact e3, hnoi, hg, h5, rfl, rfl, rfl, rfl,
      rfl⟩, rfl, hcells⟩

/-- C98, dense tensors: after any history of calls (refused ones included) with distinct channel names and histograms of
the size of their channels, a complete input without nuisances in the data covariance can be written, whatever the
iteration order of the sets. -/
theorem c98_dense_partial (cfg : Cfg V) (hd : cfg.sparse = false) (hb : cfg.addBBB = false) (ops : List (Op V))
    (hf : Spec.freshNames cfg {} ops) (hfit : Spec.fitting cfg {} ops) (hc : Spec.complete (run cfg ops))
    (hcov : (run cfg ops).covariance = []) (iter : List String → List String) (hit : ∀ l, (iter l).Perm l) :
    ∃ t, (write cfg iter (run cfg ops)).2 = .ok t := by
  obtain ⟨t, lay, cells, W, hfull, _⟩ := written0_dense hd hf hfit hc hit (run cfg ops).dataCov
  have hnil : iter (run cfg ops).covariance = [] := by
    have := hit (run cfg ops).covariance
    rw [hcov] at this ⊢
    exact List.perm_nil.1 this
  refine ⟨t, congrArg Prod.snd (write_of (s' := { run cfg ops with dataCov := (run cfg ops).dataCov })
    (c := (run cfg ops).dataCov) W ?_ ?_)⟩
  · unfold initCov
    rw [hcov, hb]
    simp
  · rw [hnil, hb, cov_plain, hfull]

/-- C98, nuisances in the data covariance: if no channel is masked, the data variances are numbers and a covariance given
by the user has the size of the data, such an input can be written as well. -/
theorem c98_covariance_partial (cfg : Cfg V) (hd : cfg.sparse = false) (hb : cfg.addBBB = false) (ops : List (Op V))
    (hf : Spec.freshNames cfg {} ops) (hfit : Spec.fitting cfg {} ops) (hc : Spec.complete (run cfg ops))
    (hm : ∀ chan c, (chan, c) ∈ (run cfg ops).channels → c.masked = false)
    (hv : ∀ chan l, (run cfg ops).dataVar.get? chan = some l → ∀ x ∈ l, ∃ v, x = .fin v)
    (hn : ∀ cov, (run cfg ops).dataCov = some cov → cov.n = nbinsFull (run cfg ops).nbinschan)
    (iter : List String → List String) (hit : ∀ l, (iter l).Perm l) :
    ∃ t, (write cfg iter (run cfg ops)).2 = .ok t := by
  have hl := layInv_run cfg ops hf
  -- the covariance before the nuisances are added
  obtain ⟨t, lay, cells, W, _, hcells⟩ := written0_dense hd hf hfit hc hit none
  obtain ⟨hN, hnb⟩ := layInv_sizes hl W.layout W.nbins
  obtain ⟨hbd, hpw, hcv, hch, hnn⟩ := layoutFrom_bounds W.layout
  generalize run cfg ops = s at *
  have hslc : ∀ sl ∈ lay, (sl.name, sl.chan) ∈ s.channels := fun sl hsl => by
    have : (sl.name, sl.chan) ∈ lay.map fun sl => (sl.name, sl.chan) := List.mem_map.2 ⟨sl, hsl, rfl⟩
    rw [hch] at this; exact this
  have hsum : unmaskedSum lay = (lay.map (·.n)).sum := by
    unfold unmaskedSum
    congr 1
    exact List.map_congr_left fun sl hsl => by rw [hm _ _ (hslc sl hsl)]; rfl
  have hnN : t.nbins = t.nbinsfull := by rw [hnb, W.nbinsfull, hN, hsum]
  have hvar : ∀ b, b < t.nbins → ∃ v, t.dataVar b = .fin v := by
    intro b _
    have hobs : ∀ b, ∃ v, t.dataVar b = .fin v := by
      intro b
      have := W.var
      unfold fillData at this
      revert this
      have hall : ∀ (f : Nat → FVal V), (∀ b, ∃ v, f b = .fin v) → ∀ l, (∀ sl ∈ l, sl ∈ lay) → ∀ r, loop (fun f sl =>
          if sl.chan.masked then .ok f else match s.dataVar.get? sl.name with
            | some l => assign t.nbins f sl.start sl.n l
            | none => .error .key) f l = .ok r → ∀ b, ∃ v, r b = .fin v := by
        intro f hf l
        induction l generalizing f with
        | nil => intro _ r h; cases h; exact hf
        | cons sl l ih =>
          intro hin r h
          unfold loop at h
          split at h
          · rename_i f' hf'
            refine ih f' ?_ (fun x hx => hin x (by simp [hx])) r h
            split at hf'
            · cases hf'; exact hf
            · split at hf'
              · rename_i vs hvs
                intro b
                unfold assign at hf'
                dsimp only at hf'
                split at hf'
                · cases hf'
                  dsimp only
                  split
                  · rw [List.getD_eq_getElem?_getD]
                    cases hg : vs[b - min sl.start t.nbins]? with
                    | none => exact hf b
                    | some x => exact hv _ _ hvs x (List.mem_of_getElem? hg)
                  · exact hf b
                · split at hf'
                  · cases hf'
                    dsimp only
                    split
                    · exact hv _ _ hvs _ (by simp)
                    · exact hf b
                  · cases hf'
              · cases hf'
          · cases h
      exact fun h => hall _ (fun _ => ⟨0, rfl⟩) lay (fun _ h => h) _ h b
    exact hobs b
  have hdiag : diagVar t.nbins t.dataVar =
      .ok ⟨t.nbins, fun i j => if i = j then ((t.dataVar i).toFin?).getD 0 else 0⟩ := by
    unfold diagVar
    rw [if_pos]
    rw [List.all_eq_true]
    intro i hi
    obtain ⟨v, hv⟩ := hvar i (List.mem_range.1 hi)
    rw [hv]; rfl
  obtain ⟨c, hc0, hcn⟩ : ∃ c, initCov cfg.addBBB s t.nbins t.dataVar = .ok c ∧ ∀ cov, c = some cov → cov.n = t.nbinsfull := by
    unfold initCov
    split
    · rw [hdiag]
      exact ⟨_, rfl, fun cov h => by cases h; exact hnN⟩
    · exact ⟨_, rfl, fun cov h => by rw [W.nbinsfull]; exact hn cov h⟩
  obtain ⟨s', full, hw⟩ : ∃ s' full, writeCov cfg.addBBB t.nbinsfull t.procs.length t.sumw2 cells (iter s.covariance) c
      { s with dataCov := c } = (s', .ok full) := by
    rw [hb]
    cases c with
    | none => exact ⟨_, _, rfl⟩
    | some cov =>
      obtain ⟨s', r, h1, h2⟩ := covLoop_total (names := iter s.covariance) (s := { s with dataCov := some cov })
        (fun m => systVector_ok hcells m) (hcn cov rfl)
      refine ⟨s', some r, ?_⟩
      show (covLoop t.nbinsfull cells cov (iter s.covariance) >>= fun cov =>
        (M.lift (.ok cov) >>= fun full => M.pure (some full))) { s with dataCov := some cov } = _
      rw [bind_def, h1]
      rfl
  have W' : Written0 cfg iter s { t with fullCov := full } lay cells :=
    ⟨W.1, W.2, W.3, W.4, W.5, W.6, W.7, W.8, W.9, W.10, W.11, W.12, W.13, W.14, W.15, W.16, W.17, W.18, W.19, W.20⟩
  exact ⟨_, congrArg Prod.snd (write_of W' hc0 hw)⟩

/-- C98: what a successful `write` needs, in every state and for every setting: no process is both a signal and a
background, and every fitted channel has its data and all sets of pseudo-data. -/
theorem c98_needed (cfg : Cfg V) (s : State V) (iter : List String → List String)
    (hit : ∀ l, (iter l).Perm l) (t : Tensor V) (hw : (write cfg iter s).2 = .ok t) : Spec.complete s := by
  obtain ⟨lay, cells, W⟩ := write_ok hw
  obtain ⟨_, _, _, hch, _⟩ := layoutFrom_bounds W.layout
  have hslot : ∀ chan c, s.channels.get? chan = some c → ∃ sl ∈ lay, sl.name = chan ∧ sl.chan = c := by
    intro chan c h
    have hc' := Dict.mem_of_get? _ _ _ h
    rw [← hch] at hc'
    obtain ⟨sl, hsl, he⟩ := List.mem_map.1 hc'
    simp only [Prod.mk.injEq] at he
    exact ⟨sl, hsl, he⟩
  refine ⟨?_, fun chan c h hm => ⟨fun hno => ?_, fun hno => ?_⟩, fun chan c h hm n hnn hno => ?_⟩
  · intro p h1 h2
    have := W.procs
    unfold procsOf at this
    rw [if_pos] at this
    · cases this
    · rw [List.any_eq_true]; exact ⟨p, h1, by simpa using h2⟩
  · obtain ⟨sl, hsl, rfl, rfl⟩ := hslot chan c h
    obtain ⟨f, f', hb⟩ := loop_body_ok W.obs sl hsl
    rw [hm, hno] at hb
    cases hb
  · obtain ⟨sl, hsl, rfl, rfl⟩ := hslot chan c h
    obtain ⟨f, f', hb⟩ := loop_body_ok W.var sl hsl
    rw [hm, hno] at hb
    cases hb
  · obtain ⟨sl, hsl, rfl, rfl⟩ := hslot chan c h
    obtain ⟨f, f', hb⟩ := loop_body_ok W.pseudo sl hsl
    rw [hm] at hb
    simp only [Bool.false_eq_true, if_false] at hb
    obtain ⟨i, hi⟩ := List.mem_iff_getElem?.1 ((hit _).mem_iff.2 hnn)
    obtain ⟨g, g', hb'⟩ := loop_body_ok hb (n, i) (by rw [List.mk_mem_zipIdx_iff_getElem?]; exact hi)
    unfold Spec.at2 at hno
    cases hd : s.pseudo.get? sl.name with
    | none => rw [hd] at hb'; cases hb'
    | some dc =>
      rw [hd] at hb' hno
      have hno' : dc.get? n = none := hno
      dsimp only at hb'
      rw [hno'] at hb'
      cases hb'

/-! ### Complete inputs that cannot be written -/

/-- C98, masked channels: with a nuisance in the data covariance, masked bins and no covariance given by the user, `write`
raises whatever else was registered: the covariance it starts from has the fitted bins only. -/
theorem c98_masked_covariance (cfg : Cfg V) (s : State V) (iter : List String → List String) (hit : ∀ l, (iter l).Perm l)
    (hcov : s.covariance ≠ []) (hno : s.dataCov = none) (hN : nbinsFull s.nbinschan ≠ 1)
    (hm : ∀ m, nbinsOf s.channels s.nbinschan = .ok m → m ≠ nbinsFull s.nbinschan) :
    ∃ e, (write cfg iter s).2 = .error e := by
  cases hw : (write cfg iter s).2 with
  | error e => exact ⟨e, rfl⟩
  | ok t =>
    exfalso
    obtain ⟨lay, cells, W⟩ := write_ok hw
    obtain ⟨c, s', h1, h2, _⟩ := W.cov
    unfold initCov at h1
    have hne : s.covariance.isEmpty = false := by
      cases h : s.covariance with
      | nil => exact (hcov h).elim
      | cons _ _ => rfl
    rw [hno, hne] at h1
    simp only [Option.isNone_none, Bool.not_false, Bool.true_or, Bool.and_self, if_true] at h1
    unfold diagVar at h1
    split at h1
    · cases h1
      unfold writeCov at h2
      obtain ⟨s1, cov, h3, _⟩ := bind_ok h2
      cases hi : iter s.covariance with
      | nil =>
        have := hit s.covariance
        rw [hi] at this
        exact hcov (List.nil_perm.1 this)
      | cons m l =>
        rw [hi] at h3
        unfold covLoop at h3
        obtain ⟨v, _, h3⟩ := lift_bind_ok h3
        obtain ⟨cov', h4, _⟩ := lift_bind_ok h3
        unfold addOuter at h4
        rw [if_neg, if_neg] at h4
        · cases h4
        · rw [W.nbinsfull]; exact hN
        · dsimp only
          rw [W.nbinsfull]; exact hm _ W.nbins
    · cases h1

/-! ### Checks on concrete histories -/

namespace Ex

def sizeB (flow : Bool) (axes : List Axis) (h : HIn V) : Bool :=
  (h.flatVals flow).length == prod (dims flow axes) &&
    match h.flatVars flow with
    | .ok v => v.length == prod (dims flow axes)
    | .error _ => true

def optB (flow : Bool) (axes : List Axis) : Option (HIn V) → Bool
  | none => true
  | some h => sizeB flow axes h

def fitsB (s : State V) : Op V → Bool
  | .data h chan vars => match s.channels.get? chan with
    | none => true
    | some c => sizeB false c.axes h && optB false c.axes vars
  | .pseudo h _ chan => match s.channels.get? chan with
    | none => true
    | some c => sizeB false c.axes h
  | .process h _ chan _ vars => match s.channels.get? chan with
    | none => true
    | some c => sizeB c.flow c.axes h && optB c.flow c.axes vars
  | .syst (.single h) _ _ chan .. => match s.channels.get? chan with
    | none => true
    | some c => sizeB c.flow c.axes h
  | .syst (.pair u d) _ _ chan .. => match s.channels.get? chan with
    | none => true
    | some c => sizeB c.flow c.axes u && sizeB c.flow c.axes d
  | _ => true

def freshB (s : State V) : Op V → Bool
  | .channel _ name _ _ => !s.channels.has (name.getD s!"ch{s.channels.length}")
  | _ => true

/-- distinct channel names, and histograms of the size of their channels -/
def goodB (cfg : Cfg V) : State V → List (Op V) → Bool
  | _, [] => true
  | s, op :: ops => fitsB s op && freshB s op && goodB cfg (step cfg op s).1 ops

def allOkB (cfg : Cfg V) : State V → List (Op V) → Bool
  | _, [] => true
  | s, op :: ops => (step cfg op s).2.isOk && allOkB cfg (step cfg op s).1 ops

def completeB (s : State V) : Bool :=
  (s.signals.all fun p => p ∉ s.bkgs) && s.channels.all fun kc => kc.2.masked ||
    ((s.dataObs.get? kc.1).isSome && (s.dataVar.get? kc.1).isSome &&
      s.pseudoNames.all fun n => (Spec.at2 s.pseudo kc.1 n).isSome)

theorem sizeB_iff {flow : Bool} {axes : List Axis} {h : HIn V} (hb : sizeB flow axes h = true) :
    Spec.fullSize flow axes h := by
  unfold sizeB at hb
  rw [Bool.and_eq_true] at hb
  refine ⟨by simpa using hb.1, fun v hv => ?_⟩
  rw [hv] at hb
  simpa using hb.2

theorem optB_iff {flow : Bool} {axes : List Axis} {vars : Option (HIn V)} (hb : optB flow axes vars = true) :
    ∀ v, vars = some v → Spec.fullSize flow axes v := by
  rintro v rfl
  exact sizeB_iff hb

theorem fitsB_iff {s : State V} {op : Op V} (h : fitsB s op = true) : Spec.fitsOp s op := by
  cases op with
  | data _ _ _ =>
    intro c hc
    simp only [fitsB, hc, Bool.and_eq_true] at h
    exact ⟨sizeB_iff h.1, optB_iff h.2⟩
  | pseudo _ _ _ =>
    intro c hc
    simp only [fitsB, hc] at h
    exact sizeB_iff h
  | process _ _ _ _ _ =>
    intro c hc
    simp only [fitsB, hc, Bool.and_eq_true] at h
    exact ⟨sizeB_iff h.1, optB_iff h.2⟩
  | syst x _ _ _ _ _ _ _ _ _ =>
    cases x <;>
    · intro c hc
      simp only [fitsB, hc, Bool.and_eq_true] at h
      first | exact ⟨sizeB_iff h.1, sizeB_iff h.2⟩ | exact sizeB_iff h
  | _ => trivial

def isErr {α : Type} (e : Err) : Res α → Bool
  | .error e' => e' == e
  | .ok _ => false

theorem isErr_iff {α : Type} {e : Err} {r : Res α} (h : isErr e r = true) : r = .error e := by
  cases r with
  | error e' => rw [show e' = e by simpa [isErr] using h]
  | ok _ => cases h

theorem goodB_iff (cfg : Cfg V) (ops : List (Op V)) : ∀ s, goodB cfg s ops = true →
    Spec.freshNames cfg s ops ∧ Spec.fitting cfg s ops := by
  induction ops with
  | nil => exact fun s _ => ⟨trivial, trivial⟩
  | cons op ops ih =>
    intro s h
    simp only [goodB, Bool.and_eq_true] at h
    obtain ⟨⟨h1, h2⟩, h3⟩ := h
    refine ⟨⟨fun chan hc => ?_, (ih _ h3).1⟩, fitsB_iff h1, (ih _ h3).2⟩
    cases op <;> first | exact hc.elim | skip
    rw [← (show _ = chan from hc)]
    simpa [freshB] using h2

theorem allOkB_iff (cfg : Cfg V) (ops : List (Op V)) : ∀ s, allOkB cfg s ops = true → Spec.allOk cfg s ops := by
  induction ops with
  | nil => exact fun s _ => trivial
  | cons op ops ih =>
    intro s h
    simp only [allOkB, Bool.and_eq_true] at h
    refine ⟨?_, ih _ h.2⟩
    cases hr : (step cfg op s).2 with
    | error e => rw [hr] at h; cases h.1
    | ok _ => rfl

theorem completeB_iff {s : State V} (h : completeB s = true) : Spec.complete s := by
  simp only [completeB, Bool.and_eq_true, List.all_eq_true, Bool.or_eq_true, decide_eq_true_eq] at h
  have hk : ∀ chan c, s.channels.get? chan = some c → c.masked = false → ((s.dataObs.get? chan).isSome = true ∧
      (s.dataVar.get? chan).isSome = true) ∧ ∀ n ∈ s.pseudoNames, (Spec.at2 s.pseudo chan n).isSome = true := by
    intro chan c hc hm
    rcases h.2 (chan, c) (Dict.mem_of_get? _ _ _ hc) with h' | h'
    · rw [hm] at h'; cases h'
    · exact h'
  refine ⟨h.1, fun chan c hc hm => ⟨?_, ?_⟩, fun chan c hc hm n hn => ?_⟩
  · exact Option.isSome_iff_ne_none.1 (hk chan c hc hm).1.1
  · exact Option.isSome_iff_ne_none.1 (hk chan c hc hm).1.2
  · exact Option.isSome_iff_ne_none.1 ((hk chan c hc hm).2 n hn)

/-- two fitted channels and a masked one with flow bins, two processes, data, pseudo-data and systematics of all kinds;
two of the calls are refused -/
def totalOps : List (Op ℚ) := [
  .channel [ax 2] (some "b") false false,
  .channel [⟨some "x", 2, 2, true, true, none⟩] (some "m") true true,
  .channel [ax 2, ax 2] none false false,
  .process (h [1, 2]) "p" "b" true none,
  .process (.array [2] [.fin 1, .fin 0]) "q" "b" false (some (h [1, 1])),
  .process (.hist [⟨some "x", 2, 2, true, true, none⟩] (fun f => if f then [.fin 1, .fin 2, .fin 3, .fin 4] else [.fin 2, .fin 3])
    (fun f => if f then [.fin 1, .fin 2, .fin 3, .fin 4] else [.fin 2, .fin 3])) "p" "m" true none,
  .process (.array [2, 2] [.fin 1, .fin 2, .fin 3, .fin 4]) "q" "ch2" false none,
  .process (h [1, 2]) "q" "b" false none,
  .data (h [5, 6]) "b" none,
  .data (.array [2, 2] [.fin 1, .fin 2, .fin 3, .nan]) "ch2" none,
  .pseudo (h [7, 8]) (some "d") "b",
  .pseudo (.array [2, 2] [.fin 1, .fin 2, .fin 3, .fin 3]) (some "d") "ch2",
  .syst (.single (h [2, 3])) "n" "p" "b" 1 true .average false false {},
  .syst (.pair (h [2, 3]) (h [1, 1])) "k" "p" "b" 1 true .none false false { noi := true, constrained := false },
  .syst (.pair (h [2, 3]) (h [1, 1])) "l" "p" "b" 1 true .quadratic false true {},
  .normSyst "o" ["p", "q"] "b" [.num 2, .list [2, 1 / 2]] false .average {},
  .syst (.single (h [2, 3])) "z" "p" "b" 1 true .average true false { noi := true },
  .write id]

end Ex

/-- C98 is violated by sets of pseudo-data with automatic names: all calls are accepted, and each of the two channels has
data and one set of pseudo-data, but the sets get different names and the file cannot be written. -/
theorem c98_pseudo_violated : ∃ (cfg : Cfg ℚ) (ops : List (Op ℚ)), cfg.sparse = false ∧ cfg.addBBB = false ∧
    Spec.allOk cfg {} ops ∧ Spec.freshNames cfg {} ops ∧ Spec.fitting cfg {} ops ∧ (run cfg ops).covariance = [] ∧
    Dict.keys (run cfg ops).dataObs = Dict.keys (run cfg ops).channels ∧
    ((run cfg ops).pseudo.map fun e => (e.1, e.2.length)) = (Dict.keys (run cfg ops).channels).map (·, 1) ∧
    (write cfg id (run cfg ops)).2.isOk = false := by
  let ops : List (Op ℚ) := [.channel [Ex.ax 1] (some "a") false false, .channel [Ex.ax 1] (some "b") false false,
    .process (Ex.h [1]) "p" "a" true none, .process (Ex.h [1]) "p" "b" true none,
    .data (Ex.h [2]) "a" none, .data (Ex.h [2]) "b" none,
    .pseudo (Ex.h [3]) none "a", .pseudo (Ex.h [3]) none "b"]
  have hg := Ex.goodB_iff Ex.cfg ops {} (by decide +kernel)
  exact ⟨Ex.cfg, ops, rfl, rfl, Ex.allOkB_iff _ _ _ (by decide +kernel), hg.1, hg.2, by decide +kernel, by decide +kernel,
    by decide +kernel, by decide +kernel⟩

/-- C98 is violated by histograms with further axes: only the axes of the channel are compared, so that a histogram with
one more axis is accepted as a template although it has more bins; the input is complete but cannot be written. -/
theorem c98_axes_violated : ∃ (cfg : Cfg ℚ) (ops : List (Op ℚ)), cfg.sparse = false ∧ cfg.addBBB = false ∧
    Spec.allOk cfg {} ops ∧ Spec.freshNames cfg {} ops ∧ Spec.complete (run cfg ops) ∧ (run cfg ops).covariance = [] ∧
    (write cfg id (run cfg ops)).2.isOk = false := by
  let ops : List (Op ℚ) := [.channel [Ex.ax 2] (some "a") false false,
    .process (.hist [Ex.ax 2, Ex.ax 2] (fun _ => [.fin 1, .fin 2, .fin 3, .fin 4]) (fun _ => [.fin 1, .fin 2, .fin 3, .fin 4]))
      "p" "a" true none, .data (Ex.h [2, 3]) "a" none]
  refine ⟨Ex.cfg, ops, rfl, rfl, Ex.allOkB_iff _ _ _ (by decide +kernel), ?_, Ex.completeB_iff (by decide +kernel),
    by decide +kernel, by decide +kernel⟩
  simp only [ops, Spec.freshNames, Spec.addsChannel, Option.getD_some, forall_eq', false_imp_iff, implies_true, and_true]
  rfl

/-- C98 is violated by nuisances in the data covariance together with a masked channel: all calls are accepted, all
histograms have the size of their channel and the input is complete, but it cannot be written. -/
theorem c98_masked_violated : ∃ (cfg : Cfg ℚ) (ops : List (Op ℚ)), cfg.sparse = false ∧ cfg.addBBB = false ∧
    Spec.allOk cfg {} ops ∧ Spec.freshNames cfg {} ops ∧ Spec.fitting cfg {} ops ∧ Spec.complete (run cfg ops) ∧
    (write cfg id (run cfg ops)).2.isOk = false := by
  let ops : List (Op ℚ) := [.channel [Ex.ax 1] (some "a") false false, .channel [Ex.ax 1] (some "m") true false,
    .process (Ex.h [1]) "p" "a" true none, .process (Ex.h [1]) "p" "m" true none, .data (Ex.h [2]) "a" none,
    .syst (.single (Ex.h [2])) "n" "p" "a" 1 true .average true false {}]
  have hg := Ex.goodB_iff Ex.cfg ops {} (by decide +kernel)
  exact ⟨Ex.cfg, ops, rfl, rfl, Ex.allOkB_iff _ _ _ (by decide +kernel), hg.1, hg.2, Ex.completeB_iff (by decide +kernel),
    by decide +kernel⟩

/-- C98 is violated with the statistical uncertainties in the data covariance (`add_bin_by_bin_stat_to_data_cov`): a
complete input with three bins and two processes cannot be written. -/
theorem c98_stat_violated : ∃ (cfg : Cfg ℚ) (ops : List (Op ℚ)), cfg.sparse = false ∧ cfg.addBBB = true ∧
    Spec.allOk cfg {} ops ∧ Spec.freshNames cfg {} ops ∧ Spec.fitting cfg {} ops ∧ Spec.complete (run cfg ops) ∧
    (run cfg ops).covariance = [] ∧ (write cfg id (run cfg ops)).2.isOk = false := by
  let cfg : Cfg ℚ := { Ex.cfg with addBBB := true }
  let ops : List (Op ℚ) := [.channel [Ex.ax 3] (some "a") false false,
    .process (Ex.h [1, 2, 3]) "p" "a" true none, .process (Ex.h [1, 1, 1]) "q" "a" false none,
    .data (Ex.h [2, 3, 4]) "a" none]
  have hg := Ex.goodB_iff cfg ops {} (by decide +kernel)
  exact ⟨cfg, ops, rfl, rfl, Ex.allOkB_iff _ _ _ (by decide +kernel), hg.1, hg.2, Ex.completeB_iff (by decide +kernel),
    by decide +kernel, by decide +kernel⟩

/-- C98 is violated in sparse mode by nuisances in the data covariance: the variations of such a nuisance are counted but
not stored, and the check of the number of stored values fails for a complete input. -/
theorem c98_sparse_violated : ∃ (cfg : Cfg ℚ) (ops : List (Op ℚ)), cfg.sparse = true ∧ cfg.addBBB = false ∧
    Spec.allOk cfg {} ops ∧ Spec.freshNames cfg {} ops ∧ Spec.fitting cfg {} ops ∧ Spec.complete (run cfg ops) ∧
    (write cfg id (run cfg ops)).2 = .error .assertion := by
  let cfg : Cfg ℚ := { Ex.cfg with sparse := true }
  let ops : List (Op ℚ) := [.channel [Ex.ax 2] (some "a") false false,
    .process (Ex.h [1, 2]) "p" "a" true none, .data (Ex.h [2, 3]) "a" none,
    .syst (.single (Ex.h [2, 3])) "n" "p" "a" 1 true .average true false {}]
  have hg := Ex.goodB_iff cfg ops {} (by decide +kernel)
  exact ⟨cfg, ops, rfl, rfl, Ex.allOkB_iff _ _ _ (by decide +kernel), hg.1, hg.2, Ex.completeB_iff (by decide +kernel),
    Ex.isErr_iff (by decide +kernel)⟩

/-- C98 is violated in sparse mode after a refused call: a systematic that is refused because a parameter of interest
cannot go to the covariance leaves its variation behind, and a complete input cannot be written any more. -/
theorem c98_refused_violated : ∃ (cfg : Cfg ℚ) (ops : List (Op ℚ)) (bad : Op ℚ), cfg.sparse = true ∧ cfg.addBBB = false ∧
    (step cfg bad (run cfg ops)).2 = .error .value ∧
    Spec.freshNames cfg {} (ops ++ [bad]) ∧ Spec.fitting cfg {} (ops ++ [bad]) ∧
    Spec.complete (run cfg ops) ∧ Spec.complete (run cfg (ops ++ [bad])) ∧ (run cfg (ops ++ [bad])).covariance = [] ∧
    (write cfg id (run cfg ops)).2.isOk = true ∧ (write cfg id (run cfg (ops ++ [bad]))).2 = .error .assertion := by
  let cfg : Cfg ℚ := { Ex.cfg with sparse := true }
  let ops : List (Op ℚ) := [.channel [Ex.ax 2] (some "a") false false,
    .process (Ex.h [1, 2]) "p" "a" true none, .data (Ex.h [2, 3]) "a" none]
  let bad : Op ℚ := .syst (.single (Ex.h [2, 3])) "n" "p" "a" 1 true .average true false { noi := true }
  have hg := Ex.goodB_iff cfg (ops ++ [bad]) {} (by decide +kernel)
  exact ⟨cfg, ops, bad, rfl, rfl, Ex.isErr_iff (by decide +kernel), hg.1, hg.2, Ex.completeB_iff (by decide +kernel), Ex.completeB_iff (by decide +kernel),
    by decide +kernel, by decide +kernel, Ex.isErr_iff (by decide +kernel)⟩

/-! ### Concrete cases -/

/-- The hypotheses of `c98_dense_partial` are met by a history with two fitted channels, a masked one with flow bins and
systematics of several kinds, two calls of which are refused. -/
example : Ex.cfg.sparse = false ∧ Ex.cfg.addBBB = false ∧ Spec.freshNames Ex.cfg {} Ex.totalOps ∧
    Spec.fitting Ex.cfg {} Ex.totalOps ∧ Spec.complete (run Ex.cfg Ex.totalOps) ∧
    (run Ex.cfg Ex.totalOps).covariance = [] ∧ Ex.allOkB Ex.cfg {} Ex.totalOps = false ∧
    ∃ t, (write Ex.cfg List.reverse (run Ex.cfg Ex.totalOps)).2 = .ok t := by
  have hg := Ex.goodB_iff Ex.cfg Ex.totalOps {} (by decide +kernel)
  have hc := Ex.completeB_iff (s := run Ex.cfg Ex.totalOps) (by decide +kernel)
  have hv : (run Ex.cfg Ex.totalOps).covariance = [] := by decide +kernel
  exact ⟨rfl, rfl, hg.1, hg.2, hc, hv, by decide +kernel,
    c98_dense_partial Ex.cfg rfl rfl Ex.totalOps hg.1 hg.2 hc hv _ fun l => l.reverse_perm⟩

/-- The hypotheses of `c98_covariance_partial` are met with two nuisances in the covariance. -/
example :
    let ops : List (Op ℚ) := [.channel [Ex.ax 2] (some "a") false false, .process (Ex.h [1, 2]) "p" "a" true none,
      .data (Ex.h [2, 3]) "a" none, .syst (.single (Ex.h [2, 3])) "n" "p" "a" 1 true .average true false {},
      .normSyst "o" ["p"] "a" [.num 2] true .average {}]
    (run Ex.cfg ops).covariance = ["n", "o"] ∧ Ex.goodB Ex.cfg {} ops = true ∧ Ex.completeB (run Ex.cfg ops) = true ∧
    ((run Ex.cfg ops).channels.all fun c => !c.2.masked) = true ∧
    (run Ex.cfg ops).dataVar = [("a", [.fin 2, .fin 3])] ∧ (run Ex.cfg ops).dataCov.isNone = true ∧
    (write Ex.cfg id (run Ex.cfg ops)).2.isOk = true := by decide +kernel

end Verif.Writer
