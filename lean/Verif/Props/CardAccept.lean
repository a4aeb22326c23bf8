import Verif.Props.CardFit
import Verif.Props.FileAccept

/-!
C108: A complete datacard is converted, without covariance of the data, and fitted with its likelihood.
-/

namespace Verif.CardFile

open Verif.Writer Verif.Datacard FileFit.Spec

noncomputable section

/-- What has to hold for a card besides describing an analysis: each bin has its columns, each process once; entries and rate parameters are
for columns; the values and ranges of rate parameters are numbers; histograms of a bin have the axes of its observation; variances are not negative. -/
structure Spec.Complete (close : Axis → Axis → Bool) (roots : String → Dict String (Node (Hist ℝ))) (mass : String) (flt : String → Res ℝ)
    (c : Card ℝ) : Prop where
  binned : ∀ b ∈ c.bins, ∃ d, Dict.get? c.binMap b = some d ∧ (Dict.keys d).Nodup
  entries : ∀ s ∈ c.systematics, ∀ b p e, Spec.Entry s b p e → Spec.Column c b p
  rates : ∀ row ∈ c.rateParams, ∀ m b p, (m, b, p) ∈ Spec.rateCells c row → b ∈ c.bins ∧ Spec.Column c b p
  values : ∀ row ∈ c.rateParams, ∃ m b p v rest, row = m :: b :: p :: v :: rest ∧ (∃ x, flt v = .ok x) ∧
    ∀ r, rest.head? = some r → ∃ lo hi : String, r.toList = '[' :: (lo.toList ++ ',' :: hi.toList ++ [']']) ∧ ',' ∉ lo.toList ∧
      ',' ∉ hi.toList ∧ (∃ x, flt lo = .ok x) ∧ ∃ x, flt hi = .ok x
  axes : ∀ b ∈ c.bins, ∀ h0, Datacard.Spec.Given roots mass c "data_obs" b none h0 → ∀ p y h, Datacard.Spec.Given roots mass c p b y h →
    List.Forall₂ (fun a b => close a b = true) h0.axes h.axes
  variances : ∀ b ∈ c.bins, ∀ p h, (p = "data_obs" ∨ Spec.Column c b p) → Datacard.Spec.Given roots mass c p b none h →
    ∀ x ∈ h.vars false, ∃ v, x = .fin v ∧ 0 ≤ v

theorem wellFormed_append {V : Type} [Field V] [LinearOrder V] {cfg : Cfg V} {l m : List (Op V)} : ∀ {K : Writer.Spec.Book},
    Writer.Spec.wellFormed cfg K l → Writer.Spec.wellFormed cfg (K.notes l) m → Writer.Spec.wellFormed cfg K (l ++ m) := by
  induction l with
  | nil => exact fun _ h => h
  | cons op l ih => exact fun h h' => ⟨h.1, ih h.2 h'⟩

theorem callOps_append {V : Type} {symm : Symm} {a b : List (Call V (Hist V))} {o o' : List (Op V)} (h : callOps symm a = .ok o)
    (h' : callOps symm b = .ok o') : callOps symm (a ++ b) = .ok (o ++ o') := by
  induction a generalizing o with
  | nil => rw [← Except.ok.inj h]; exact h'
  | cons x a ih =>
    rw [callOps] at h
    obtain ⟨y, hy, h⟩ := Datacard.bind_ok h
    obtain ⟨r, hr, h⟩ := Datacard.map_ok h
    show callOps symm (x :: (a ++ b)) = _
    rw [callOps, hy, ok_bind, ih hr, ok_map, ← h]
    rfl

section
variable {close : Axis → Axis → Bool} {roots : String → Dict String (Node (Hist ℝ))} {mass : String} {flt : String → Res ℝ} {symm : Symm}
  {c : Card ℝ} {A : Analysis} (D : Spec.Describes roots mass flt symm c A) (W : Spec.Complete close roots mass flt c)
include D W

omit D W in
theorem numbers_of {l : List (FVal ℝ)} (h : ∀ (i : Nat) x, l[i]? = some x → ∃ v, x = .fin v) : Writer.Spec.numbers l := fun x hx => by
  obtain ⟨i, hi⟩ := List.mem_iff_getElem?.1 hx
  exact h i x hi

omit W in
theorem perBin_of {b : String} (hb : b ∈ c.bins) {h0 : Hist ℝ} (hg : Datacard.Spec.Given roots mass c "data_obs" b none h0)
    {p : String} {y : Option String} {h : Hist ℝ} (hh : Datacard.Spec.Given roots mass c p b y h) :
    Writer.Spec.perBin ⟨h0.axes, false, false⟩ false h.input := by
  have hp : Writer.prod (dims false h0.axes) = Spec.nbins h0 := by
    rw [FileFit.prod_eq]
    rfl
  rw [Writer.Spec.perBin, hp]
  exact D.sizes b hb h0 hg p y h hh

theorem process_allowed {b : String} (hb : b ∈ c.bins) {h0 : Hist ℝ} (hg : Datacard.Spec.Given roots mass c "data_obs" b none h0)
    {K : Writer.Spec.Book} (hK : K.chans b = some ⟨h0.axes, false, false⟩) {p : String} (hcol : Spec.Column c b p) (hp : ¬ K.procs b p) :
    ∃ h i, Datacard.nominal (fileEnv roots mass c counting flt 0 1.01) c p b = .ok h ∧ Dict.get? c.indices p = some i ∧
      K.allows (writerCfg Yields.num close false) (Op.process h.input p b (decide (i ≤ 0)) none) := by
  obtain ⟨hpp, _, i, hi⟩ := D.columns b hb p hcol
  obtain ⟨h, hgp, hv⟩ := D.nominal b hb p hcol
  refine ⟨h, i, nominal_given D.named (.inr hpp) hb hgp, hi, hp, _, hK, W.axes b hb h0 hg p none h hgp, perBin_of D hb hg hgp,
    numbers_of fun i x hx => ?_, by simp, W.variances b hb p h (.inr hcol) hgp⟩
  obtain ⟨v, hv, _⟩ := hv i x hx
  exact ⟨v, hv⟩

/-- the books before and after the calls for processes -/
theorem processes_ok {b : String} (hb : b ∈ c.bins) {h0 : Hist ℝ} (hg : Datacard.Spec.Given roots mass c "data_obs" b none h0) :
    ∀ (ps : List String) (K : Writer.Spec.Book), ps.Nodup → (∀ p ∈ ps, Spec.Column c b p) → K.chans b = some ⟨h0.axes, false, false⟩ →
      (∀ p ∈ ps, ¬ K.procs b p) → ∃ calls ops, processCalls (fileEnv roots mass c counting flt 0 1.01) c b ps = .ok calls ∧
        callOps symm calls = .ok ops ∧ Writer.Spec.wellFormed (writerCfg Yields.num close false) K ops ∧ (∀ op ∈ ops, Writer.Spec.noCov op) ∧
        Writer.Spec.givenCov ops = none ∧
        (K.notes ops).chans = K.chans ∧ (K.notes ops).data = K.data ∧ (K.notes ops).pseudo = K.pseudo ∧
        (∀ b' p, (K.notes ops).procs b' p ↔ (b' = b ∧ p ∈ ps) ∨ K.procs b' p) ∧
        ∀ sig p, (K.notes ops).kind sig p → K.kind sig p ∨ ∃ i, Dict.get? c.indices p = some i ∧ sig = decide (i ≤ 0) := by
  intro ps
  induction ps with
  | nil => exact fun K _ _ _ _ => ⟨[], [], rfl, rfl, trivial, by simp, rfl, rfl, rfl, rfl, fun b' p => by simp [Writer.Spec.Book.notes], fun _ _ h => .inl h⟩
  | cons p ps ih =>
    intro K hn hcol hK hp
    obtain ⟨h, i, e1, hi, hal⟩ := process_allowed D W hb hg hK (hcol p List.mem_cons_self) (hp p List.mem_cons_self)
    have hne := (D.columns b hb p (hcol p List.mem_cons_self)).2.1
    obtain ⟨hn1, hn2⟩ := List.nodup_cons.1 hn
    obtain ⟨calls, ops, f1, f2, f3, f4, f4', f5, f6, f7, f8, f9⟩ := ih (K.note (Op.process h.input p b (decide (i ≤ 0)) none)) hn2
      (fun q hq => hcol q (List.mem_cons_of_mem _ hq)) hK (fun q hq h => by
        rcases h with ⟨_, rfl⟩ | h
        · exact hn1 hq
        · exact hp q (List.mem_cons_of_mem _ hq) h)
    refine ⟨.process h p b (decide (i ≤ 0)) :: calls, .process h.input p b (decide (i ≤ 0)) none :: ops, ?_, ?_, ⟨hal, f3⟩, ?_, f4', f5, f6, f7,
      fun b' q => ?_, fun sig q hk => ?_⟩
    · rw [processCalls, e1, ok_bind, f1, ok_map, if_neg hne, hi]
      rfl
    · rw [callOps, callOp, ok_bind, f2, ok_map]
    · intro op hop
      rcases List.mem_cons.1 hop with rfl | hop
      · trivial
      · exact f4 op hop
    · refine (f8 b' q).trans ?_
      simp only [Writer.Spec.Book.note, List.mem_cons]
      constructor
      · rintro (⟨h1, h2⟩ | ⟨h1, h2⟩ | h)
        · exact .inl ⟨h1, .inr h2⟩
        · exact .inl ⟨h1, .inl h2⟩
        · exact .inr h
      · rintro (⟨h1, h2 | h2⟩ | h)
        · exact .inr (.inl ⟨h1, h2⟩)
        · exact .inl ⟨h1, h2⟩
        · exact .inr (.inr h)
    · rcases f9 sig q hk with (⟨rfl, rfl⟩ | h) | h
      · exact .inr ⟨i, hi, rfl⟩
      · exact .inl h
      · exact .inr h

omit D W in
theorem givenCov_append {V : Type} {l m : List (Op V)} (h : Writer.Spec.givenCov l = none) (h' : Writer.Spec.givenCov m = none) :
    Writer.Spec.givenCov (l ++ m) = none := by
  unfold Writer.Spec.givenCov at h h' ⊢
  rw [List.foldl_append, h]
  exact h'

/-- the calls for channels, data and processes -/
theorem nominal_ok : ∀ (bs : List String) (K : Writer.Spec.Book), bs.Nodup → (∀ b ∈ bs, b ∈ c.bins) →
      (∀ b ∈ bs, K.chans b = none ∧ ¬ K.data b ∧ ∀ p, ¬ K.procs b p) →
      ∃ calls ops, nominalCalls (fileEnv roots mass c counting flt 0 1.01) c bs = .ok calls ∧
        callOps symm calls = .ok ops ∧ Writer.Spec.wellFormed (writerCfg Yields.num close false) K ops ∧ (∀ op ∈ ops, Writer.Spec.noCov op) ∧
        Writer.Spec.givenCov ops = none ∧
        (∀ b, (K.notes ops).chans b = K.chans b ∨ b ∈ bs) ∧
        (∀ b ∈ bs, ∃ h, Datacard.Spec.Given roots mass c "data_obs" b none h ∧ (K.notes ops).chans b = some ⟨h.axes, false, false⟩) ∧
        (∀ b, (K.notes ops).data b ↔ b ∈ bs ∨ K.data b) ∧ (K.notes ops).pseudo = K.pseudo ∧
        (∀ b p, (K.notes ops).procs b p ↔ (b ∈ bs ∧ Spec.Column c b p) ∨ K.procs b p) ∧
        ∀ sig p, (K.notes ops).kind sig p → K.kind sig p ∨ ∃ i, Dict.get? c.indices p = some i ∧ sig = decide (i ≤ 0) := by
  intro bs
  induction bs with
  | nil => exact fun K _ _ _ => ⟨[], [], rfl, rfl, trivial, by simp, rfl, fun _ => .inl rfl, by simp, by simp [Writer.Spec.Book.notes], rfl,
      by simp [Writer.Spec.Book.notes], fun _ _ h => .inl h⟩
  | cons b bs ih =>
    intro K hn hin hK
    obtain ⟨hn1, hn2⟩ := List.nodup_cons.1 hn
    have hb := hin b List.mem_cons_self
    obtain ⟨k1, k2, k3⟩ := hK b List.mem_cons_self
    obtain ⟨d, hd, hdn⟩ := W.binned b hb
    obtain ⟨h0, hg, _⟩ := D.obs b hb
    have hcols : ∀ p, p ∈ Dict.keys d ↔ Spec.Column c b p := fun p => by
      rw [Dict.mem_keys_iff]
      refine ⟨fun h => ⟨d, hd, h⟩, fun ⟨d', h1, h2⟩ => ?_⟩
      rw [hd] at h1
      cases h1
      exact h2
    obtain ⟨calls, ops, f1, f2, f3, f4, f4', f5, f6, f7, f8, f9⟩ := processes_ok D W hb hg (Dict.keys d)
      ((K.note (V := ℝ) (.channel h0.axes (some b) false false)).note (V := ℝ) (.data h0.input b none)) hdn (fun p hp => (hcols p).1 hp)
      (by simp [Writer.Spec.Book.note]) (fun p _ => k3 p)
    obtain ⟨calls', ops', g1, g2, g3, g4, g4', g5, g6, g7, g8, g9, g10⟩ := ih
      (((K.note (V := ℝ) (.channel h0.axes (some b) false false)).note (V := ℝ) (.data h0.input b none)).notes ops) hn2
      (fun b' h => hin b' (List.mem_cons_of_mem _ h)) (fun b' hb' => by
        have hne : b' ≠ b := fun h => hn1 (h ▸ hb')
        obtain ⟨j1, j2, j3⟩ := hK b' (List.mem_cons_of_mem _ hb')
        rw [f5, f6]
        refine ⟨by simp [Writer.Spec.Book.note, hne.symm, j1], by simp [Writer.Spec.Book.note, hne, j2], fun p hp => ?_⟩
        rcases (f8 b' p).1 hp with h | h
        · exact hne h.1
        · exact j3 p h)
    refine ⟨_, (.channel h0.axes (some b) false false :: .data h0.input b none :: ops) ++ ops', ?_, callOps_append (a := .channel h0 b :: .data h0 b :: calls)
      (b := calls') ?_ g2, ?_, ?_, ?_, ?_, ?_, ?_, ?_, ?_, ?_⟩
    · rw [nominalCalls, Dict.get, hd, ok_bind, processCalls, nominal_given D.named (.inl rfl) hb hg, ok_bind, f1, ok_map, ok_bind, g1, ok_map, if_pos rfl]
      rfl
    · rw [callOps, callOp, ok_bind, callOps, callOp, ok_bind, f2, ok_map, ok_map]
    · refine wellFormed_append ⟨⟨⟨b, rfl, k1⟩, by simp⟩, ⟨k2, _, by simp [Writer.Spec.Book.note]; rfl, ?_⟩, f3⟩ ?_
      · exact ⟨W.axes b hb h0 hg _ _ _ hg, perBin_of D hb hg hg, by simp, W.variances b hb _ h0 (.inl rfl) hg⟩
      · exact g3
    · intro op hop
      rcases List.mem_append.1 hop with hop | hop
      · rcases List.mem_cons.1 hop with rfl | hop
        · trivial
        · rcases List.mem_cons.1 hop with rfl | hop
          · trivial
          · exact f4 op hop
      · exact g4 op hop
    · exact givenCov_append f4' g4'
    all_goals rw [show K.notes ((Op.channel h0.axes (some b) false false :: Op.data h0.input b none :: ops) ++ ops') =
        (((K.note (V := ℝ) (.channel h0.axes (some b) false false)).note (V := ℝ) (.data h0.input b none)).notes ops).notes ops' from
          List.foldl_append]
    · intro b'
      rcases g5 b' with h | h
      · rw [h, f5]
        by_cases hbb : b' = b
        · exact .inr (hbb ▸ List.mem_cons_self)
        · exact .inl (by simp [Writer.Spec.Book.note, Ne.symm hbb])
      · exact .inr (List.mem_cons_of_mem _ h)
    · intro b' hb'
      by_cases hbb : b' ∈ bs
      · exact g6 b' hbb
      · obtain rfl : b' = b := (List.mem_cons.1 hb').resolve_right hbb
        refine ⟨h0, hg, ?_⟩
        rw [(g5 b').resolve_right hbb, f5]
        simp [Writer.Spec.Book.note]
    · intro b'
      rw [g7, f6, List.mem_cons]
      show _ ∨ (b' = b ∨ K.data b') ↔ _
      rw [or_left_comm, or_assoc]
    · rw [g8, f7]
      rfl
    · intro b' p
      rw [g9, f8, List.mem_cons]
      show _ ∨ (_ ∨ K.procs b' p) ↔ _
      rw [hcols]
      constructor
      · rintro (⟨h1, h2⟩ | ⟨rfl, h⟩ | h)
        · exact .inl ⟨.inr h1, h2⟩
        · exact .inl ⟨.inl rfl, h⟩
        · exact .inr h
      · rintro (⟨rfl | h1, h2⟩ | h)
        · exact .inr (.inl ⟨rfl, h2⟩)
        · exact .inl ⟨h1, h2⟩
        · exact .inr (.inr h)
    · intro sig p hk
      rcases g10 sig p hk with h | h
      · exact f9 sig p h
      · exact .inr h

/-- a call that is fine after those in the book and leaves the book and the covariance as they are -/
def Quiet (cfg : Cfg ℝ) (K : Writer.Spec.Book) (op : Op ℝ) : Prop :=
  K.allows cfg op ∧ (∀ K' : Writer.Spec.Book, K'.note op = K') ∧ Writer.Spec.noCov op ∧ ∀ cov, op ≠ .dataCov cov

omit D W in
theorem quiet_ops {cfg : Cfg ℝ} {K : Writer.Spec.Book} {l : List (Call ℝ (Hist ℝ))} (h : ∀ x ∈ l, ∃ op, callOp symm x = .ok op ∧ Quiet cfg K op) :
    ∃ ops, callOps symm l = .ok ops ∧ Writer.Spec.wellFormed cfg K ops ∧ K.notes ops = K ∧ (∀ op ∈ ops, Writer.Spec.noCov op) ∧
      Writer.Spec.givenCov ops = none := by
  induction l with
  | nil => exact ⟨[], rfl, trivial, rfl, by simp, rfl⟩
  | cons x l ih =>
    obtain ⟨op, h1, h2, h3, h4, h5⟩ := h x List.mem_cons_self
    obtain ⟨ops, f1, f2, f3, f4, f5⟩ := ih fun y hy => h y (List.mem_cons_of_mem _ hy)
    refine ⟨op :: ops, by rw [callOps, h1, ok_bind, f1, ok_map], ⟨h2, by rw [h3]; exact f2⟩, ?_, ?_, ?_⟩
    · show (K.note op).notes ops = K
      rw [h3, f3]
    · intro o ho
      rcases List.mem_cons.1 ho with rfl | ho
      · exact h4
      · exact f4 o ho
    · have e : Writer.Spec.givenCov (op :: ops) = Writer.Spec.givenCov ops := by
        unfold Writer.Spec.givenCov
        rw [List.foldl_cons]
        cases op with
        | dataCov cov => exact absurd rfl (h5 cov)
        | _ => rfl
      rw [e, f5]

/-- rate parameters -/
theorem rates_ok {K : Writer.Spec.Book} (hp : ∀ b ∈ c.bins, ∀ p, Spec.Column c b p → K.procs b p) :
    ∃ r, rateParamCalls (fileEnv roots mass c counting flt 0 1.01) c c.rateParams = .ok r ∧
      ∀ x ∈ r, ∃ op, callOp symm x = .ok op ∧ Quiet (writerCfg Yields.num close false) K op := by
  have key : ∀ rows : List (List String), (∀ row ∈ rows, row ∈ c.rateParams) →
      ∃ r, rateParamCalls (fileEnv roots mass c counting flt 0 1.01) c rows = .ok r := by
    intro rows
    induction rows with
    | nil => exact fun _ => ⟨[], rfl⟩
    | cons row rows ih =>
      intro hin
      obtain ⟨r, hr⟩ := ih fun row h => hin row (List.mem_cons_of_mem _ h)
      obtain ⟨m, b, p, v, rest, rfl, ⟨x, hx⟩, hrest⟩ := W.values row (hin row List.mem_cons_self)
      refine ⟨((if b = "*" then c.bins else [b]).map fun b => .norm m (if p = "*" then c.processes else [p]) b (.single 1.01) false) ++ r, ?_⟩
      rw [rateParamCalls]
      unfold rateParamCall
      dsimp only
      rw [show (fileEnv roots mass c counting flt 0 1.01).flt v = .ok x from hx, ok_bind]
      cases rest with
      | nil => rw [ok_map, ok_bind, hr, ok_map]; rfl
      | cons q rest =>
        obtain ⟨lo, hi, h1, h2, h3, ⟨y, hy⟩, z, hz⟩ := hrest q rfl
        have hc : checkRange (fileEnv roots mass c counting flt 0 1.01) q = .ok () := by
          have e : (String.ofList ((q.toList.drop 1).dropLast)).toList = lo.toList ++ ',' :: hi.toList := by
            rw [String.toList_ofList, h1, List.drop_one, List.tail_cons, List.dropLast_concat]
          rw [checkRange, splitStr_pair ',' lo hi h2 h3 _ e]
          dsimp only [fileEnv]
          rw [hy, ok_bind, hz, ok_map]
        dsimp only
        rw [hc, ok_map, ok_bind, hr, ok_map]
        rfl
  obtain ⟨r, hr⟩ := key c.rateParams fun _ h => h
  refine ⟨r, hr, fun x hx => ?_⟩
  obtain ⟨m, b, p, ⟨row, h1, h2⟩, rfl⟩ := (rate_calls (symm := symm) hr D.rateOne).1 x hx
  obtain ⟨h3, h4⟩ := W.rates row h1 m b p h2
  refine ⟨_, rfl, ⟨fun q hq => ?_, by simp, .inl rfl, fun u hu => .inl ⟨_, List.mem_singleton.1 hu⟩⟩, fun _ => rfl, rfl, fun _ h => nomatch h⟩
  rw [List.mem_singleton.1 hq]
  exact hp b h3 p h4

omit D W in
theorem effects_ok {f : String → String → String → Res (Call ℝ (Hist ℝ))} {P : Call ℝ (Hist ℝ) → Prop} {d : Dict (String × String) String}
    (h : ∀ b p e, ((b, p), e) ∈ d → e ≠ "-" → e ≠ "0" → ∃ x, f b p e = .ok x ∧ P x) : ∃ r, effectCalls f d = .ok r ∧ ∀ x ∈ r, P x := by
  induction d with
  | nil => exact ⟨[], rfl, by simp⟩
  | cons a d ih =>
    obtain ⟨⟨b, p⟩, e⟩ := a
    obtain ⟨r, hr, hP⟩ := ih fun b p e h' => h b p e (List.mem_cons_of_mem _ h')
    rw [effectCalls]
    by_cases he : e = "-" ∨ e = "0"
    · exact ⟨r, by rw [if_pos he, hr], hP⟩
    · obtain ⟨x, hx, hPx⟩ := h b p e List.mem_cons_self (fun h => he (.inl h)) (fun h => he (.inr h))
      refine ⟨x :: r, by rw [if_neg he, hx, ok_bind, hr, ok_map], fun y hy => ?_⟩
      rcases List.mem_cons.1 hy with rfl | hy
      · exact hPx
      · exact hP y hy

/-- rows of the card -/
theorem systs_ok {K : Writer.Spec.Book} (hp : ∀ b ∈ c.bins, ∀ p, Spec.Column c b p → K.procs b p)
    (hch : ∀ b ∈ c.bins, ∃ h, Datacard.Spec.Given roots mass c "data_obs" b none h ∧ K.chans b = some ⟨h.axes, false, false⟩) :
    ∃ r, systCalls (fileEnv roots mass c counting flt 0 1.01) c c.systematics = .ok r ∧
      ∀ x ∈ r, ∃ op, callOp symm x = .ok op ∧ Quiet (writerCfg Yields.num close false) K op := by
  have key : ∀ ss : List Syst, (∀ s ∈ ss, s ∈ c.systematics) → ∃ r, systCalls (fileEnv roots mass c counting flt 0 1.01) c ss = .ok r ∧
      ∀ x ∈ r, ∃ op, callOp symm x = .ok op ∧ Quiet (writerCfg Yields.num close false) K op := by
    intro ss
    induction ss with
    | nil => exact fun _ => ⟨[], rfl, by simp⟩
    | cons s ss ih =>
      intro hin
      obtain ⟨r', hr', hP'⟩ := ih fun s h => hin s (List.mem_cons_of_mem _ h)
      have hs := hin s List.mem_cons_self
      suffices h : ∃ r, (if s.type ∈ ["shape", "shapeN", "shape?", "shapeU"] then
            effectCalls (fun bin proc e => shapeCall (fileEnv roots mass c counting flt 0 1.01) c s.name s.type proc bin e) s.effects
          else if s.type ∈ ["lnN", "lnU"] then
            effectCalls (fun bin proc e => normCall (fileEnv roots mass c counting flt 0 1.01) s.name proc bin e) s.effects
          else .ok []) = .ok r ∧ ∀ x ∈ r, ∃ op, callOp symm x = .ok op ∧ Quiet (writerCfg Yields.num close false) K op by
        obtain ⟨r, hr, hP⟩ := h
        refine ⟨r ++ r', by rw [systCalls, hr, ok_bind, hr', ok_map], fun x hx => ?_⟩
        rcases List.mem_append.1 hx with hx | hx
        · exact hP x hx
        · exact hP' x hx
      by_cases ht : s.type ∈ Spec.shapeTypes
      · rw [if_pos (show s.type ∈ ["shape", "shapeN", "shape?", "shapeU"] from ht)]
        refine effects_ok fun b p e hm h1 h2 => ?_
        have hent : Spec.Entry s b p e := ⟨hm, h1, h2⟩
        obtain ⟨hb, hpp⟩ := D.entries s hs b p e hent
        obtain ⟨k, hu, hd, hk, g1, g2, g3⟩ := D.shape s hs ht b p e hent
        obtain ⟨h0, hg, hK⟩ := hch b hb
        have hn : (b, Spec.nbins h0) ∈ A.chans := (D.chans b _).2 ⟨hb, h0, hg, rfl⟩
        have hlen : ∀ {y h}, Datacard.Spec.Given roots mass c p b y h → ∀ (i : Nat) x, (h.vals false)[i]? = some x → i < Spec.nbins h0 := by
          intro y h hgh i x hx
          rw [← (D.sizes b hb h0 hg p y h hgh).1]
          exact (List.getElem?_eq_some_iff.1 hx).1
        refine ⟨_, shapeCall_given D.named hs hb hpp g1 g2 hk, _, rfl, ⟨hp b hb p (W.entries s hs b p e hent), by simp, _, hK,
          ⟨W.axes b hb h0 hg _ _ _ g1, perBin_of D hb hg g1, numbers_of fun i x hx => ?_⟩,
          W.axes b hb h0 hg _ _ _ g2, perBin_of D hb hg g2, numbers_of fun i x hx => ?_⟩, fun _ => rfl, rfl, fun _ h => nomatch h⟩
        · obtain ⟨u, _, e1, _, _⟩ := g3 _ hn i (hlen g1 i x hx)
          exact ⟨u, Option.some.inj (hx.symm.trans e1)⟩
        · obtain ⟨_, d, _, e2, _⟩ := g3 _ hn i (hlen g2 i x hx)
          exact ⟨d, Option.some.inj (hx.symm.trans e2)⟩
      · have ht' := (D.types s hs).resolve_right ht
        rw [if_neg (show ¬ s.type ∈ ["shape", "shapeN", "shape?", "shapeU"] from ht), if_pos (by rw [ht']; decide)]
        refine effects_ok fun b p e hm h1 h2 => ?_
        have hent : Spec.Entry s b p e := ⟨hm, h1, h2⟩
        obtain ⟨hb, hpp⟩ := D.entries s hs b p e hent
        have hq : ∀ q ∈ [p], K.procs b q := fun q hq => by
          rw [List.mem_singleton.1 hq]
          exact hp b hb p (W.entries s hs b p e hent)
        rcases D.norm s hs ht' b p e hent with ⟨h1, κ, h2, h3, _⟩ | ⟨down, up, h1, h2, h3, dv, u, h4, h5, _⟩
        · exact ⟨_, normCall_given.1 h1 κ h2, _, rfl, ⟨hq, by simp, .inl rfl, fun u hu => .inl ⟨_, List.mem_singleton.1 hu⟩⟩, fun _ => rfl, rfl,
            fun _ h => nomatch h⟩
        · exact ⟨_, normCall_given.2 down up dv u h1 h2 h3 h4 h5, _, rfl, ⟨hq, by simp, .inl rfl, fun u hu => .inr
            ⟨⟨_, _, List.mem_singleton.1 hu⟩, .inl rfl⟩⟩, fun _ => rfl, rfl, fun _ h => nomatch h⟩
  exact key c.systematics fun _ h => h

omit D W in
theorem run_all {cfg : Cfg ℝ} {ops : List (Op ℝ)} : ∀ {s : State ℝ}, Writer.Spec.allOk cfg s ops → runAll cfg s ops = .ok (runOps cfg s ops) := by
  induction ops with
  | nil => exact fun _ => rfl
  | cons op ops ih =>
    intro s h
    rw [runAll]
    rcases hst : step cfg op s with ⟨s', r⟩
    have h1 : r = .ok () := by rw [← h.1, hst]
    have h2 := h.2
    rw [hst] at h2
    subst h1
    dsimp only
    rw [ih h2]
    show _ = Except.ok (runOps cfg (step cfg op s).1 ops)
    rw [hst]

/-- the conversion and the file -/
theorem card_ok (iter : List String → List String) (hit : ∀ l, (iter l).Perm l) :
    ∃ t, cardFile (writerCfg Yields.num close false) symm iter roots mass flt 0 1.01 c = .ok t ∧ t.fullCov = none := by
  obtain ⟨a, oa, a1, a2, a3, a4, a4', a5, a6, a7, a8, a9, a10⟩ := nominal_ok D W c.bins .empty D.binsOnce (fun _ h => h)
    (fun b _ => ⟨rfl, id, fun _ => id⟩)
  have hp : ∀ b ∈ c.bins, ∀ p, Spec.Column c b p → (Writer.Spec.Book.notes .empty oa).procs b p := fun b hb p hc => (a9 b p).2 (.inl ⟨hb, hc⟩)
  obtain ⟨r, r1, r2⟩ := rates_ok D W hp
  obtain ⟨d, d1, d2⟩ := systs_ok D W hp a6
  obtain ⟨o, o1, o2, o3, o4, o5⟩ := quiet_ops (l := r ++ d) (symm := symm) fun x hx => (List.mem_append.1 hx).elim (r2 x) (d2 x)
  have hconv : convert (fileEnv roots mass c counting flt 0 1.01) c = .ok (a ++ (r ++ d)) := by
    rw [convert, a1, ok_bind, r1, ok_bind, d1, ok_map, List.append_assoc]
  have hops := callOps_append a2 o1
  have hw := wellFormed_append a3 o2
  have hnotes : Writer.Spec.Book.notes .empty (oa ++ o) = Writer.Spec.Book.notes .empty oa := by
    unfold Writer.Spec.Book.notes at o3 ⊢
    rw [List.foldl_append, o3]
  have hcov : ∀ op ∈ oa ++ o, Writer.Spec.noCov op := fun op h => (List.mem_append.1 h).elim (a4 op) (o4 op)
  have hfull : (Writer.Spec.Book.notes .empty (oa ++ o)).full := by
    rw [hnotes]
    refine ⟨fun p h => ?_, fun b ch hb _ => (a7 b).2 (.inl ?_), fun _ _ _ _ b n hn => ?_⟩
    · rcases a10 true p h.1 with h1 | ⟨i, hi, h1⟩
      · exact h1
      rcases a10 false p h.2 with h2 | ⟨j, hj, h2⟩
      · exact h2
      rw [hi] at hj
      cases hj
      rw [← h1] at h2
      cases h2
    · rcases a5 b with h | h
      · rw [h] at hb
        cases hb
      · exact h
    · rw [a8] at hn
      exact hn.elim
  obtain ⟨t, t1, t2⟩ := c107_written (writerCfg Yields.num close false) rfl SystType.noConfusion rfl _ hw hfull hcov iter hit
  refine ⟨t, ?_, t2.trans (givenCov_append a4' o5)⟩
  rw [cardFile, hconv, ok_bind, hops, ok_bind, run_all (c107_accepted _ rfl SystType.noConfusion _ hw), ok_bind]
  exact t1

end

/-- C108: A card that describes an analysis and is complete is converted without exception, whatever the iteration order of the sets; the file has no
covariance of the data, and the loss built from it is, at every point and up to one constant, the negative logarithm of the likelihood of the card. -/
theorem c108_card_partial (close : Axis → Axis → Bool) (symm : Symm) (iter : List String → List String) (hit : ∀ l, (iter l).Perm l)
    (roots : String → Dict String (Node (Hist ℝ))) (mass : String) (flt : String → Res ℝ) (c : Card ℝ) (A : Analysis)
    (D : Spec.Describes roots mass flt symm c A) (W : Spec.Complete close roots mass flt c) (xdef : List ℝ) (neg : Bool) :
    ∃ t, cardFile (writerCfg Yields.num close false) symm iter roots mass flt 0 1.01 c = .ok t ∧ t.fullCov = none ∧
      ∃ C, ∀ x, (FileFit.ofFile t .logNormal xdef neg).loss x =
        .ok (some (A.nll (strength t neg (List.ofFn x)) (nuisance t (List.ofFn x)) + C)) := by
  obtain ⟨t, h1, h2⟩ := card_ok D W iter hit
  exact ⟨t, h1, h2, c105_card_partial close symm iter hit roots mass flt c A D t h1 xdef neg⟩

/-- C108 for the text of a card. -/
theorem c108_text_partial (close : Axis → Axis → Bool) (symm : Symm) (iter : List String → List String) (hit : ∀ l, (iter l).Perm l)
    (roots : String → Dict String (Node (Hist ℝ))) (mass : String) (flt : String → Res ℝ) (int : String → Res Int) (files : Files)
    (text : List Char) (c : Card ℝ) (hc : parse flt int files text = .ok c) (A : Analysis) (D : Spec.Describes roots mass flt symm c A)
    (W : Spec.Complete close roots mass flt c) (xdef : List ℝ) (neg : Bool) :
    ∃ t, textFile (writerCfg Yields.num close false) symm iter roots mass flt int files 0 1.01 text = .ok t ∧ t.fullCov = none ∧
      ∃ C, ∀ x, (FileFit.ofFile t .logNormal xdef neg).loss x =
        .ok (some (A.nll (strength t neg (List.ofFn x)) (nuisance t (List.ofFn x)) + C)) := by
  rw [textFile, hc, ok_bind]
  exact c108_card_partial close symm iter hit roots mass flt c A D W xdef neg

namespace Ex

theorem plain {p b y h} (hg : Datacard.Spec.Given roots "125" card p b y h) : h.axes = [Writer.Ex.ax 2] ∧ ∀ x ∈ h.vars false, ∃ v, x = .fin v ∧ 0 ≤ v := by
  obtain ⟨s, name, ps, _, _, _, _, _, ha⟩ := hg
  cases ha with
  | here hm => simp [roots, file] at hm
  | down hm ha =>
    simp only [roots, file, List.mem_singleton, Prod.mk.injEq, Node.dir.injEq] at hm
    obtain ⟨-, rfl⟩ := hm
    cases ha with
    | here hm =>
      simp only [List.mem_cons, Prod.mk.injEq, Node.hist.injEq, List.not_mem_nil, or_false] at hm
      rcases hm with ⟨_, rfl⟩ | ⟨_, rfl⟩ | ⟨_, rfl⟩ | ⟨_, rfl⟩ | ⟨_, rfl⟩ <;> simp [hh]
    | down hm _ => simp at hm

theorem complete : Spec.Complete close roots "125" flt card where
  binned := by
    intro b hb
    obtain rfl : b = "b" := by simpa [card] using hb
    exact ⟨_, rfl, by decide +kernel⟩
  entries := by
    intro s hs b p e he
    rw [column_iff]
    obtain ⟨rfl, ⟨_, rfl, _⟩ | ⟨_, ⟨rfl, _⟩ | ⟨rfl, _⟩⟩⟩ := (entry_iff hs b p e).1 he <;> simp
  rates := by
    intro row hr m b p h
    obtain ⟨rfl, rfl, rfl⟩ := (rate_iff hr m b p).1 h
    exact ⟨by simp [card], (column_iff _ _).2 ⟨rfl, .inr rfl⟩⟩
  values := by
    intro row hr
    simp only [card, List.mem_singleton] at hr
    exact ⟨_, _, _, _, _, hr, ⟨1, by simp [flt]⟩, by simp⟩
  axes := by
    intro b _ h0 h1 p y h h2
    rw [(plain h1).1, (plain h2).1]
    exact .cons (by simp [close]) .nil
  variances := fun b _ p h _ hg => (plain hg).2

end Ex

/-- The hypotheses of `c108_card_partial` are met by the card of the example of C105. -/
example : ∃ t C, cardFile (writerCfg Yields.num Ex.close false) .none id Ex.roots "125" Ex.flt 0 1.01 Ex.card = .ok t ∧
    ∀ x, (FileFit.ofFile t .logNormal [1] true).loss x =
      .ok (some (Ex.paper.nll (strength t true (List.ofFn x)) (nuisance t (List.ofFn x)) + C)) := by
  obtain ⟨t, h1, _, C, h2⟩ := c108_card_partial Ex.close .none id (fun l => .refl l) Ex.roots "125" Ex.flt Ex.card Ex.paper Ex.describes Ex.complete [1] true
  exact ⟨t, C, h1, h2⟩

/-- two bins; the process `q` is in the first one only -/
def ExQ.twoBins (rows : List (List String)) : Card ℚ :=
  { ExQ.card with bins := ["b", "d"], binMap := [("b", [("s", 1), ("q", 2)]), ("d", [("s", 1)])], rateParams := rows }

/-- The code violates C108 for a rate parameter of a process in all bins if a bin has no column for the process: the conversion ends with an
exception, although the card is converted without the rate parameter, or with one for the bin of the process. -/
theorem c108_rate_violated : (∃ t, ExQ.made (ExQ.twoBins []) = .ok t) ∧ (∃ t, ExQ.made (ExQ.twoBins [["r", "b", "q", "1"]]) = .ok t) ∧
    ExQ.made (ExQ.twoBins [["r", "*", "q", "1"]]) matches .error .key := by
  refine ⟨?_, ?_, ?_⟩
  · obtain ⟨t, h, _⟩ := ExQ.of_okB (c := ExQ.twoBins []) (f := fun _ => true) (by decide +kernel)
    exact ⟨t, h⟩
  · obtain ⟨t, h, _⟩ := ExQ.of_okB (c := ExQ.twoBins [["r", "b", "q", "1"]]) (f := fun _ => true) (by decide +kernel)
    exact ⟨t, h⟩
  · decide +kernel

end

end Verif.CardFile
