import Verif.Lemmas.Thin
import Verif.Model.ReadTensor
import Verif.Props.WriterDense
import Verif.Props.Yields

/-!
C10 from the calls to the yields: the files that the writer produces in dense and in sparse mode from the same calls predict the same yields.
-/

namespace Verif.Writer

open Verif.Logk M

set_option linter.unusedSectionVars false

section
variable {V : Type} [Field V] [LinearOrder V]

theorem at2_mapV {α β : Type} (f : α → β) (d : Dict String (Dict String α)) (a b : String) :
    Spec.at2 (mapV (mapV f) d) a b = (Spec.at2 d a b).map f := by
  unfold Spec.at2
  rw [mapV_get?]
  cases Dict.get? d a with
  | none => rfl
  | some i => exact mapV_get? _ _ _

theorem at3_mapV {α β : Type} (f : α → β) (d : Dict String (Dict String (Dict String α))) (a b c : String) :
    Spec.at3 (mapV (mapV (mapV f)) d) a b c = (Spec.at3 d a b c).map f := by
  unfold Spec.at3
  rw [at2_mapV]
  cases Spec.at2 d a b with
  | none => rfl
  | some i => exact mapV_get? _ _ _

theorem bookedVar_thin (s : State V) (half : Bool) (c p m : String) :
    Spec.bookedVar s.thin half c p m = (Spec.bookedVar s half c p m).map LogkE.thin := by
  have e1 : Spec.at3 s.thin.logkavg c p m = (Spec.at3 s.logkavg c p m).map LogkE.thin := at3_mapV _ _ _ _ _
  have e2 : Spec.at3 s.thin.logkhalf c p m = (Spec.at3 s.logkhalf c p m).map LogkE.thin := at3_mapV _ _ _ _ _
  unfold Spec.bookedVar
  rw [e1, e2]
  cases Spec.at3 s.logkavg c p m with
  | none => rfl
  | some e => cases half <;> rfl

theorem var_thin (l : List V) (i : Nat) : Spec.var (LogkE.thin (.dense l)) i = l.getD i 0 := by
  show Spec.var (.sparse (nonzeros l)) i = _
  by_cases h : l.getD i 0 = 0
  · by_contra hc
    rw [h] at hc
    have h1 := mem_nonzeros.1 (mem_var hc)
    rw [List.getD_eq_getElem?_getD, h1.1] at h
    exact h1.2 h
  · refine var_mem ((nonzeros_sorted l).imp Nat.ne_of_lt) (mem_nonzeros.2 ⟨?_, h⟩)
    rw [List.getD_eq_getElem?_getD] at h ⊢
    cases hl : l[i]? with
    | none => rw [hl] at h; exact absurd rfl h
    | some v => rfl

/-! ### Cells -/

def Cell.thin (c : Cell V) : Cell V := { c with avg := mapV LogkE.thin c.avg, half := mapV LogkE.thin c.half }

theorem collect_map {α β : Type} {g : β → β} {body body' : α → Res (Option β)} (h : ∀ a, body' a = (body a).map (Option.map g)) :
    ∀ l, collect body' l = (collect body l).map (List.map g) := by
  intro l
  induction l with
  | nil => rfl
  | cons a l ih =>
    unfold collect
    rw [h, ih]
    cases body a with
    | error e => rfl
    | ok o =>
      cases collect body l with
      | error e => cases o <;> rfl
      | ok r => cases o <;> rfl

theorem cellsOfSlot_thin (s : State V) (procs : List String) (sl : Slot) :
    cellsOfSlot s.thin procs sl = (cellsOfSlot s procs sl).map (List.map Cell.thin) := by
  have e1 : s.thin.logkavg.get? sl.name = (s.logkavg.get? sl.name).map _ := mapV_get? _ _ _
  have e2 : s.thin.logkhalf.get? sl.name = (s.logkhalf.get? sl.name).map _ := mapV_get? _ _ _
  unfold cellsOfSlot
  rw [e1, e2, show s.thin.norm = s.norm from rfl, show s.thin.sumw2 = s.sumw2 from rfl]
  cases s.norm.get? sl.name with
  | none => rfl
  | some nc => cases s.sumw2.get? sl.name with
    | none => rfl
    | some wc => cases s.logkavg.get? sl.name with
      | none => rfl
      | some ac => cases s.logkhalf.get? sl.name with
        | none => rfl
        | some hc =>
          refine collect_map (fun pi => ?_) _
          cases nc.get? pi.1 with
          | none => rfl
          | some n =>
            dsimp only [Option.map_some]
            rw [mapV_get?, mapV_get?]
            cases wc.get? pi.1 with
            | none => rfl
            | some w => cases ac.get? pi.1 with
              | none => rfl
              | some a => cases hc.get? pi.1 <;> rfl

theorem cellsOf_thin (s : State V) (procs : List String) (lay : List Slot) :
    cellsOf s.thin procs lay = (cellsOf s procs lay).map (List.map Cell.thin) := by
  induction lay with
  | nil => rfl
  | cons sl lay ih =>
    unfold cellsOf
    rw [ih, cellsOfSlot_thin]
    cases cellsOfSlot s procs sl with
    | error e => rfl
    | ok l => cases cellsOf s procs lay with
      | error e => rfl
      | ok ls =>
        show Except.ok _ = Except.ok _
        rw [List.map_append]

theorem loop_map {α α' β : Type} (g : α' → α) (body : β → α → Res β) : ∀ (l : List α') (b : β),
    loop body b (l.map g) = loop (fun b x => body b (g x)) b l := by
  intro l
  induction l with
  | nil => exact fun _ => rfl
  | cons x l ih =>
    intro b
    show loop body b (g x :: l.map g) = _
    unfold loop
    cases body b (g x) with
    | error e => rfl
    | ok b' => exact ih b'

theorem fillSumw_thin (N : Nat) (cells : List (Cell V)) : fillSumw N (cells.map Cell.thin) = fillSumw N cells := by
  unfold fillSumw
  rw [loop_map]
  rfl

theorem fillSumw2_thin (N : Nat) (cells : List (Cell V)) : fillSumw2 N (cells.map Cell.thin) = fillSumw2 N cells := by
  unfold fillSumw2
  rw [loop_map]
  rfl

/-! ### Everything but the tensors -/

/-- the files agree in everything but the templates with their variations and the covariance -/
structure Spec.sameFrame (t t' : Tensor V) : Prop where
  procs : t'.procs = t.procs
  signals : t'.signals = t.signals
  systs : t'.systs = t.systs
  noConstraint : t'.noConstraint = t.noConstraint
  groups : t'.groups = t.groups
  noiIdxs : t'.noiIdxs = t.noiIdxs
  pseudoNames : t'.pseudoNames = t.pseudoNames
  weights : t'.weights = t.weights
  channelInfo : t'.channelInfo = t.channelInfo
  symmetric : t'.symmetric = t.symmetric
  nbins : t'.nbins = t.nbins
  nbinsfull : t'.nbinsfull = t.nbinsfull
  dataObs : t'.dataObs = t.dataObs
  dataVar : t'.dataVar = t.dataVar
  pseudo : t'.pseudo = t.pseudo
  sumw : t'.sumw = t.sumw
  sumw2 : t'.sumw2 = t.sumw2

theorem frame_thin {cfg cfg' : Cfg V} {iter : List String → List String} {s : State V} {t t' : Tensor V} {lay lay' : List Slot}
    {cells cells' : List (Cell V)} (W : Written0 cfg iter s t lay cells) (W' : Written0 cfg' iter s.thin t' lay' cells') :
    Spec.sameFrame t t' ∧ lay' = lay ∧ cells' = cells.map Cell.thin := by
  have e1 : t'.procs = t.procs := Except.ok.inj (W'.procs.symm.trans W.procs)
  have e2 : t'.nbins = t.nbins := Except.ok.inj (W'.nbins.symm.trans W.nbins)
  have e3 : t'.nbinsfull = t.nbinsfull := W'.nbinsfull.trans W.nbinsfull.symm
  have e4 : lay' = lay := Except.ok.inj (W'.layout.symm.trans W.layout)
  have e5 : cells' = cells.map Cell.thin := by
    have := W'.isCells
    rw [e1, e4, cellsOf_thin, W.isCells] at this
    exact (Except.ok.inj this).symm
  refine ⟨⟨e1, W'.signals.trans W.signals.symm, W'.systs.trans W.systs.symm, W'.noConstraint.trans W.noConstraint.symm,
    Except.ok.inj (W'.groups.symm.trans W.groups), Except.ok.inj (W'.noi.symm.trans W.noi),
    W'.pseudoNames.trans W.pseudoNames.symm, Except.ok.inj (W'.weights.symm.trans W.weights),
    W'.channelInfo.trans W.channelInfo.symm, W'.symmetric.trans W.symmetric.symm, e2, e3, ?_, ?_, ?_, ?_, ?_⟩, e4, e5⟩
  · have := W'.obs; rw [e2, e4] at this; exact Except.ok.inj (this.symm.trans W.obs)
  · have := W'.var; rw [e2, e4] at this; exact Except.ok.inj (this.symm.trans W.var)
  · have := W'.pseudo; rw [e2, e4] at this; exact Except.ok.inj (this.symm.trans W.pseudo)
  · have := W'.sumw; rw [e3, e5, fillSumw_thin] at this; exact Except.ok.inj (this.symm.trans W.sumw)
  · have := W'.sumw2; rw [e3, e5, fillSumw2_thin] at this; exact Except.ok.inj (this.symm.trans W.sumw2)

end

/-! ### The tensors -/

theorem tiles_mem : ∀ {l : List (String × Nat × Nat)} {a N : Nat}, Spec.tiles a (l.map (·.2)) N → ∀ b, a ≤ b → b < N →
    ∃ x ∈ l, x.2.1 ≤ b ∧ b < x.2.2 := by
  intro l
  induction l with
  | nil => intro a N h b h1 h2; have : a = N := h; omega
  | cons x l ih =>
    intro a N h b h1 h2
    obtain ⟨e1, e2, h3⟩ := h
    simp only at e1 e2 h3
    by_cases hb : b < x.2.2
    · exact ⟨x, by simp, by omega, hb⟩
    · obtain ⟨y, hy, h4⟩ := ih h3 b (by omega) h2
      exact ⟨y, by simp [hy], h4⟩

theorem rowMajor_pos {l : List (Nat × Nat × ℝ)} (h : Spec.rowMajor l) {i j : Nat} {b p : Nat} {v w : ℝ}
    (hi : l[i]? = some (b, p, v)) (hj : l[j]? = some (b, p, w)) : i = j := by
  unfold Spec.rowMajor at h
  rw [List.pairwise_iff_getElem] at h
  obtain ⟨hi1, hi2⟩ := List.getElem?_eq_some_iff.1 hi
  obtain ⟨hj1, hj2⟩ := List.getElem?_eq_some_iff.1 hj
  rcases Nat.lt_trichotomy i j with hlt | heq | hlt
  · have := h i j hi1 hj1 hlt
    rw [hi2, hj2] at this
    simp only at this
    omega
  · exact heq
  · have := h j i hj1 hi1 hlt
    rw [hi2, hj2] at this
    simp only at this
    omega

theorem rowMajor_sum {l : List (Nat × Nat × ℝ)} (h : Spec.rowMajor l) {i c : Nat} {v : ℝ} (hm : (i, c, v) ∈ l) :
    ((l.filter fun e => e.1 == i && e.2.1 == c).map (·.2.2)).sum = v := by
  have : l.filter (fun e => e.1 == i && e.2.1 == c) = [(i, c, v)] := by
    induction l with
    | nil => cases hm
    | cons x l ih =>
      unfold Spec.rowMajor at h ih
      rw [List.pairwise_cons] at h
      rcases List.mem_cons.1 hm with rfl | hm
      · rw [List.filter_cons, if_pos (by simp)]
        congr 1
        refine List.filter_eq_nil_iff.2 fun e he => ?_
        have := h.1 e he
        simp only [Bool.and_eq_true, beq_iff_eq]
        simp only at this
        omega
      · have hx := h.1 _ hm
        rw [List.filter_cons, if_neg]
        · exact ih h.2 hm
        · simp only [Bool.and_eq_true, beq_iff_eq]
          simp only at hx
          omega
  rw [this]
  simp

/-- C10, from the calls to the tensors: the same calls (dense histograms of the size of their channels, distinct names of channels, some of the
calls may be refused) on a writer in dense and on a writer in sparse mode; the files agree in everything but the tensors, and the sparse tensors
hold the same content as the dense ones. -/
theorem c10_content_partial (cfg : Cfg ℝ) (hd : cfg.sparse = false) (ops : List (Op ℝ)) (hf : Spec.freshNames cfg {} ops)
    (hfit : Spec.fitting cfg {} ops) (hp : ∀ op ∈ ops, Spec.plain op) (iter : List String → List String) (t t' : Tensor ℝ)
    (hw : (write cfg iter (run cfg ops)).2 = .ok t) (hw' : (write cfg.toSparse iter (run cfg.toSparse ops)).2 = .ok t') :
    Spec.sameFrame t t' ∧ ∃ norm logk out, t.body = .dense norm logk ∧ t'.body = .sparse out ∧
      Yields.Spec.SameContent (t.shape cfg.systType) (readSparse out) (readDense t norm logk) := by
  have hl := layInv_run cfg ops hf
  have hs := sized_run hd ops hf hfit
  have hrun := sim_run hd ops hp
  have hf' : Spec.freshNames cfg.toSparse {} ops := fresh_thin hd ops hp {} hf
  have hsz : ∀ c p n, Spec.at2 (run cfg ops).norm c p = some n → ∃ l, n = .dense l ∧
      ∀ k, (run cfg ops).nbinschan.get? c = some k → l.length = k := by
    intro c p n h
    obtain ⟨ch, hch, l, rfl, hlen⟩ := hs.norm c p n h
    refine ⟨l, rfl, fun k hk => ?_⟩
    rw [hl.get (Dict.mem_of_get? _ _ _ hch)] at hk
    cases hk
    exact hlen
  have hat2 : ∀ {c nc p n}, (run cfg ops).norm.get? c = some nc → nc.get? p = some n →
      Spec.at2 (run cfg ops).norm c p = some n := by
    intro c nc p n h1 h2
    unfold Spec.at2; rw [h1]; exact h2
  have hcsr : Spec.csrInRange (run cfg ops) := by
    intro chan nc proc size l h1 h2
    obtain ⟨_, h, _⟩ := hsz _ _ _ (hat2 h1 h2)
    cases h
  have hcsr' : Spec.csrInRange (run cfg.toSparse ops) := by rw [hrun]; exact hcsr
  have hsz' : Spec.sized (run cfg.toSparse ops) := by
    rw [hrun]
    intro chan proc l n h1 h2
    obtain ⟨l', h3, h4⟩ := hsz chan proc _ h1
    cases h3
    exact h4 n h2
  obtain ⟨_, htile, _, hsumw, _, hbody⟩ := c02_layout_partial cfg ops hf iter t hw hcsr
  obtain ⟨norm, logk, hb, hlogk⟩ := c07_dense_written cfg hd ops hf iter t hw
  obtain ⟨out, hb', hrm, hrml, c1, c2, c3, c4⟩ := c11_canonical cfg.toSparse rfl ops hf' iter t' hw' hcsr' hsz'
  have hsym := c07_symmetric_flag cfg ops
  obtain ⟨lay, cells, W⟩ := write_ok hw
  obtain ⟨lay', cells', W'⟩ := write_ok hw'
  have hsame := (frame_thin W.toWritten0 (by rw [← hrun]; exact W'.toWritten0)).1
  refine ⟨hsame, norm, logk, out, hb, hb', ?_⟩
  rw [hsame.channelInfo, hsame.procs] at c2 c3 c4
  rw [hsame.systs] at c3 c4
  rw [hsame.sumw, hsame.nbinsfull, hsame.procs] at c1
  rw [hsame.sumw] at c2 c3 c4
  rw [hrun] at c3 c4
  have hN : norm = t.sumw := hbody norm logk hb
  subst hN
  -- value of a booked variation
  have hval : ∀ half c p m e, Spec.bookedVar (run cfg ops) half c p m = some e → ∀ k,
      (run cfg ops).nbinschan.get? c = some k → ∀ i, i < k → Spec.var e.thin i = Spec.denseVar e i := by
    intro half c p m e he k hk i hi
    have : ∃ n l, Spec.at2 (run cfg ops).norm c p = some n ∧ e = .dense l ∧ l.length = n.vals.length := by
      unfold Spec.bookedVar at he
      cases ha : Spec.at3 (run cfg ops).logkavg c p m with
      | none => rw [ha] at he; cases he
      | some e' =>
        rw [ha] at he
        cases half
        · cases he
          exact hs.avg _ _ _ _ ha
        · exact hs.half _ _ _ _ he
    obtain ⟨n, l, h1, rfl, h3⟩ := this
    obtain ⟨l', rfl, h4⟩ := hsz _ _ _ h1
    have hlen : l.length = k := h3.trans (h4 k hk)
    rw [var_thin]
    show _ = l.getD (if l.length = 1 then 0 else i) 0
    split_ifs with h1
    · congr 1; omega
    · rfl
  have hnb : ∀ name a b, (name, a, b) ∈ readerFrom 0 t.channelInfo → (run cfg ops).nbinschan.get? name = some (b - a) := by
    intro name a b h
    rw [W.channelInfo, reader_eq W.layout fun n c hc => hl.get hc] at h
    obtain ⟨sl, hsl, he⟩ := List.mem_map.1 h
    simp only [Prod.mk.injEq] at he
    obtain ⟨rfl, rfl, rfl⟩ := he
    rw [(layoutFrom_bounds W.layout).2.2.2.2 sl hsl]
    congr 1; omega
  have hbk : ∀ {half c p m e}, Spec.bookedVar (run cfg ops).thin half c p m = some e →
      ∃ e', Spec.bookedVar (run cfg ops) half c p m = some e' ∧ e = e'.thin := by
    intro half c p m e h
    rw [bookedVar_thin] at h
    obtain ⟨e', h1, h2⟩ := Option.map_eq_some_iff.1 h
    exact ⟨e', h1, h2.symm⟩
  have hns : (t.shape cfg.systType).nsyst = t.systs.length := rfl
  have hss : (t.shape cfg.systType).symmetric = (run cfg ops).symmetric := W.symmetric
  -- columns
  have hcol : ∀ c, c < (t.shape cfg.systType).ncol → ∃ (half : Bool) (is : Nat) (m : String), t.systs[is]? = some m ∧
      c = (if half then t.systs.length else 0) + is ∧ ∀ b p, (readDense t t.sumw logk).mlogk (t.shape cfg.systType) b p c =
        if b < t.nbinsfull ∧ p < t.procs.length then logk b p (if half then 1 else 0) is else 0 := by
    intro c hc
    unfold Yields.Shape.ncol at hc
    rw [hns] at hc
    cases hsy : (t.shape cfg.systType).symmetric with
    | true =>
      rw [hsy, if_pos rfl] at hc
      refine ⟨false, c, t.systs[c], List.getElem?_eq_getElem hc, by simp, fun b p => ?_⟩
      unfold Yields.Dense.mlogk
      rw [hsy, if_pos rfl]
      rfl
    | false =>
      rw [hsy, if_neg (by simp)] at hc
      have hpos : 0 < t.systs.length := by omega
      have hmod := Nat.mod_lt c hpos
      have hdiv : c / t.systs.length < 2 := Nat.div_lt_of_lt_mul (by omega)
      have hdm := Nat.div_add_mod c t.systs.length
      refine ⟨decide (c / t.systs.length = 1), c % t.systs.length, t.systs[c % t.systs.length],
        List.getElem?_eq_getElem hmod, ?_, fun b p => ?_⟩
      · rcases Nat.lt_or_ge (c / t.systs.length) 1 with h | h
        · rw [Nat.lt_one_iff.1 h] at hdm ⊢
          simp only [Nat.zero_ne_one, decide_false, Bool.false_eq_true, if_false]
          omega
        · rw [Nat.le_antisymm (Nat.lt_succ_iff.1 hdiv) h] at hdm ⊢
          simp only [decide_true, if_true]
          omega
      · unfold Yields.Dense.mlogk
        rw [hsy, if_neg (by simp), hns]
        show (if _ then logk b p (c / t.systs.length) (c % t.systs.length) else 0) = _
        rcases Nat.lt_or_ge (c / t.systs.length) 1 with h | h
        · rw [Nat.lt_one_iff.1 h]; rfl
        · rw [Nat.le_antisymm (Nat.lt_succ_iff.1 hdiv) h]; rfl
  -- a variation that is not zero is stored
  have hstored : ∀ b p c x, c < (t.shape cfg.systType).ncol →
      (readDense t t.sumw logk).mlogk (t.shape cfg.systType) b p c = x → x ≠ 0 →
      ∃ r, (r, c, x) ∈ out.logk ∧ ∃ v, out.norm[r]? = some (b, p, v) := by
    intro b p c x hc hx hx0
    obtain ⟨half, is, m, hm, rfl, hml⟩ := hcol c hc
    rw [hml] at hx
    by_cases hbp : b < t.nbinsfull ∧ p < t.procs.length
    · rw [if_pos hbp] at hx
      obtain ⟨⟨name, a, e⟩, hR, hab, hbe⟩ := tiles_mem htile b (Nat.zero_le _) hbp.1
      simp only at hab hbe
      obtain ⟨i, rfl⟩ := Nat.exists_eq_add_of_le hab
      have hproc : t.procs[p]? = some t.procs[p] := List.getElem?_eq_getElem hbp.2
      have hi : i < e - a := by omega
      have h1 := hlogk name a e hR p _ hproc i hi is m hm half
      rw [hx] at h1
      cases hbv : Spec.bookedVar (run cfg ops) half name t.procs[p] m with
      | none => rw [hbv] at h1; exact absurd h1 hx0
      | some ev =>
        rw [hbv] at h1
        have h2 : Spec.var ev.thin i = x := (hval _ _ _ _ _ hbv _ (hnb _ _ _ hR) i hi).trans h1.symm
        obtain ⟨r, h3, h4⟩ := c3 name a e hR p _ hproc i hi is m hm half ev.thin
          (by rw [bookedVar_thin, hbv]; rfl) (by rw [h2]; exact hx0)
        rw [h2] at h3
        exact ⟨r, h3, _, h4⟩
    · rw [if_neg hbp] at hx
      exact absurd hx.symm hx0
  refine ⟨?_, ?_, ?_, ?_, ?_, ?_⟩
  · show (out.norm.map fun e => (e.1, e.2.1)).Nodup
    unfold List.Nodup
    rw [List.pairwise_map]
    exact hrm.imp fun h he => by
      simp only [Prod.mk.injEq] at he
      omega
  · exact fun e he => ⟨(c1 e.1 e.2.1 e.2.2 he).1, (c1 e.1 e.2.1 e.2.2 he).2.1⟩
  · intro b p v h
    obtain ⟨h1, h2, h3⟩ := c1 b p v h
    show (if _ then _ else _) = v
    rw [if_pos ⟨h1, h2⟩, h3]
  · intro b p hno
    refine ⟨?_, fun c hc => ?_⟩
    · show (if _ then _ else _) = (0 : ℝ)
      split_ifs with hbp
      · by_contra h0
        obtain ⟨⟨name, a, e⟩, hR, hab, hbe⟩ := tiles_mem htile b (Nat.zero_le _) hbp.1
        simp only at hab hbe
        obtain ⟨i, rfl⟩ := Nat.exists_eq_add_of_le hab
        exact hno _ (c2 name a e hR p _ (List.getElem?_eq_getElem hbp.2) i (by omega) h0)
      · rfl
    · by_contra h0
      obtain ⟨r, _, v, hv⟩ := hstored b p c _ hc rfl h0
      exact hno v (List.mem_of_getElem? hv)
  · intro i b p v hi c hc
    by_cases h0 : (readDense t t.sumw logk).mlogk (t.shape cfg.systType) b p c = 0
    · rw [h0]
      symm
      have : out.logk.filter (fun e => e.1 == i && e.2.1 == c) = [] := by
        refine List.filter_eq_nil_iff.2 fun e he hec => ?_
        simp only [Bool.and_eq_true, beq_iff_eq] at hec
        obtain ⟨rfl, rfl⟩ := hec
        obtain ⟨hne, name, a, e', ip, proc, j, is, m, half, ev, hR, hproc, hj, hm, hbv, hv, hcl, hno⟩ := c4 e.1 e.2.1 e.2.2 he
        have hij := hi.symm.trans hno
        simp only [Option.some.injEq, Prod.mk.injEq] at hij
        obtain ⟨hb0, hp0, _⟩ := hij
        subst hb0
        subst hp0
        obtain ⟨ev', hbv', rfl⟩ := hbk hbv
        obtain ⟨half', is', m', hm', hc', hml⟩ := hcol e.2.1 hc
        have hlt := (List.getElem?_eq_some_iff.1 hm).1
        have hlt' := (List.getElem?_eq_some_iff.1 hm').1
        have : half' = half ∧ is' = is := by
          rw [hcl] at hc'
          cases half <;> cases half' <;> simp only [if_true, if_false, Bool.false_eq_true, Nat.zero_add] at hc' <;>
            first | exact ⟨rfl, by omega⟩ | omega
        obtain ⟨rfl, rfl⟩ := this
        obtain ⟨hb1, hp1, _⟩ := c1 _ _ _ (List.mem_of_getElem? hi)
        rw [hml, if_pos ⟨hb1, hp1⟩, hlogk name a e' hR p proc hproc j hj is' m hm half', hbv'] at h0
        have h2 := hval _ _ _ _ _ hbv' _ (hnb _ _ _ hR) j hj
        exact hne (hv.trans (h2.trans h0))
      show ((out.logk.filter _).map _).sum = 0
      rw [this]
      rfl
    · obtain ⟨r, h1, v', h2⟩ := hstored b p c _ hc rfl h0
      have := rowMajor_pos hrm hi h2
      subst this
      exact (rowMajor_sum hrml h1).symm
  · intro e he
    obtain ⟨_, name, a, e', ip, proc, j, is, m, half, ev, hR, hproc, hj, hm, hbv, _, hcl, _⟩ := c4 e.1 e.2.1 e.2.2 he
    have hlt := (List.getElem?_eq_some_iff.1 hm).1
    show e.2.1 < (if (t.shape cfg.systType).symmetric then t.systs.length else 2 * t.systs.length)
    rw [hcl]
    cases hsy : (t.shape cfg.systType).symmetric with
    | false =>
      show _ < 2 * t.systs.length
      cases half
      · show 0 + is < _
        omega
      · show t.systs.length + is < _
        omega
    | true =>
      show _ < t.systs.length
      cases half
      · show 0 + is < _
        omega
      · exfalso
        obtain ⟨ev', hbv', _⟩ := hbk hbv
        have h0 := hsym (hss.symm.trans hsy) name proc m
        unfold Spec.bookedVar at hbv'
        rw [h0] at hbv'
        cases ha : Spec.at3 (run cfg ops).logkavg name proc m with
        | none => rw [ha] at hbv'; cases hbv'
        | some _ => rw [ha] at hbv'; cases hbv'

/-- C10: a writer in sparse mode takes and refuses the same calls, with the same exceptions, as one in dense mode (templates are dense) -/
theorem c10_calls {V : Type} [Field V] [LinearOrder V] (cfg : Cfg V) (hd : cfg.sparse = false) (pre : List (Op V)) (op : Op V) (hpre : ∀ o ∈ pre, Spec.plain o)
    (hop : Spec.plain op) : (step cfg.toSparse op (run cfg.toSparse pre)).2 = (step cfg op (run cfg pre)).2 := by
  have := sim_step hd op hop (run cfg pre)
  unfold SimAt at this
  rw [sim_run hd pre hpre, this]

/-- C10, from the calls to the yields: the same calls on a writer in dense and on a writer in sparse mode give files from which the fitter
computes the same yields, for every parameter point, rates and scaling by the initial rates, per bin and per bin and process. The condition on the
rates is that of `c10_yields_partial`; it fails for rates per bin with masked channels (`c10_masked_rates_violated`). -/
theorem c10_file_partial (cfg : Cfg ℝ) (hd : cfg.sparse = false) (ops : List (Op ℝ)) (hf : Spec.freshNames cfg {} ops)
    (hfit : Spec.fitting cfg {} ops) (hp : ∀ op ∈ ops, Spec.plain op) (iter : List String → List String) (t t' : Tensor ℝ)
    (hw : (write cfg iter (run cfg ops)).2 = .ok t) (hw' : (write cfg.toSparse iter (run cfg.toSparse ops)).2 = .ok t')
    (full : Bool) (nparams : Nat) (rinit r : Yields.Rates)
    (hr : r.rows = 1 ∨ (r.rows = t.nbinsfull ∧ (full = true ∨ t.nbinsfull = t.nbins))) (θ : Nat → ℝ) :
    ∃ n n' y y', t.yields cfg.systType full nparams rinit r θ = .ok (n, y) ∧
      t'.yields cfg.toSparse.systType full nparams rinit r θ = .ok (n', y') ∧
      ∀ b < (if full then t.nbinsfull else t.nbins), n b = n' b ∧ ∀ p < t.procs.length, y b p = y' b p := by
  obtain ⟨hs, norm, logk, out, hb, hb', h⟩ := c10_content_partial cfg hd ops hf hfit hp iter t t' hw hw'
  have hsh : t'.shape cfg.systType = t.shape cfg.systType := by
    unfold Tensor.shape
    rw [hs.nbins, hs.nbinsfull, hs.procs, hs.systs, hs.symmetric]
  obtain ⟨n, n', y, y', h1, h2, h3⟩ := Yields.c10_yields_partial _ _ _ (Yields.c10_scaled _ _ _ h nparams rinit) full r hr θ
  refine ⟨n, n', y, y', ?_, ?_, fun b hb => h3 b (hb.trans_le ?_)⟩
  · unfold Tensor.yields; rw [hb]; exact h1
  · unfold Tensor.yields; rw [hb']; dsimp only; rw [show t'.shape cfg.toSparse.systType = t.shape cfg.systType from hsh]; exact h2
  · unfold Yields.Shape.rowsOut
    show _ ≤ if (full || decide (t.nbinsfull = t.nbins)) = true then t.nbinsfull else t.nbins
    cases full with
    | true => exact Nat.le_refl _
    | false =>
      rw [Bool.false_or, if_neg (by simp)]
      split_ifs with h
      · rw [of_decide_eq_true h]
      · exact Nat.le_refl _

end Verif.Writer
