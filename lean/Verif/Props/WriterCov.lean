import Verif.Props.WriterLayout
import Verif.Props.WriterNorm

/-!
C16 (writing does not change the model; content of the data covariance).
-/

namespace Verif.Writer

open Verif.Logk M

set_option linter.unusedSectionVars false

variable {V : Type} [Field V] [LinearOrder V]

/-! ### Specification -/

/-- what process `p` contributes in bin `i` of a channel to the variation of nuisance `m` -/
def Spec.contrib (s : State V) (chan m : String) (i : Nat) (p : String) : V :=
  match Spec.at2 s.norm chan p, Spec.at3 s.logkavg chan p m with
  | some _, some (.dense l) => Spec.elem l i 0
  | some _, some (.sparse l) => Spec.var (.sparse l) i
  | _, _ => 0

/-- the file content without the covariance -/
def Spec.withoutCov (t : Tensor V) : Tensor V := { t with fullCov := none }

/-! ### Lemmas -/

/-- sufficient conditions for `write` -/
theorem write_of {cfg : Cfg V} {iter : List String → List String} {s s' : State V} {t : Tensor V} {lay : List Slot}
    {cells : List (Cell V)} {c : Option (Cov V)} (W : Written0 cfg iter s t lay cells)
    (hc : initCov cfg.addBBB s t.nbins t.dataVar = .ok c)
    (hw : writeCov cfg.addBBB t.nbinsfull t.procs.length t.sumw2 cells (iter s.covariance) c { s with dataCov := c } =
      (s', .ok t.fullCov)) : write cfg iter s = (s', .ok t) := by
  obtain ⟨h1, h2, h3, h4, h5, h6, h7, h8, h9, h10, h11, h12, h13, h14, h15, h16, h17, h18, h19, h20⟩ := W
  unfold write
  rw [read_bind, h1, lift_ok_bind, h2, lift_ok_bind]
  dsimp only
  rw [← h3, h4, lift_ok_bind, h5, lift_ok_bind, h6, lift_ok_bind, h7, lift_ok_bind, h8, lift_ok_bind, h9, lift_ok_bind,
    h10, lift_ok_bind]
  rw [← h11, h12, lift_ok_bind, hc, lift_ok_bind, modify_bind, h13, lift_ok_bind, h14, lift_ok_bind, h15, lift_ok_bind,
    bind_def, hw]
  dsimp only [M.pure]
  rw [← h16, ← h17, ← h18, ← h19, ← h20]

theorem cellsOf_dataCov (s : State V) (c : Option (Cov V)) (procs : List String) (lay : List Slot) :
    cellsOf { s with dataCov := c } procs lay = cellsOf s procs lay := by
  induction lay with
  | nil => rfl
  | cons sl lay ih =>
    unfold cellsOf
    rw [ih]
    rfl

theorem Written0.dataCov {cfg : Cfg V} {iter : List String → List String} {s : State V} {t : Tensor V} {lay : List Slot}
    {cells : List (Cell V)} (W : Written0 cfg iter s t lay cells) (c : Option (Cov V)) :
    Written0 cfg iter { s with dataCov := c } t lay cells :=
  ⟨W.1, W.2, W.3, W.4, by rw [cellsOf_dataCov]; exact W.5, W.6, W.7, W.8, W.9, W.10, W.11, W.12, W.13, W.14, W.15, W.16,
    W.17, W.18, W.19, W.20⟩

/-- apart from the covariance, the file is determined by the other fields of the writer -/
theorem written_congr {cfg : Cfg V} {iter : List String → List String} {s : State V} {c c' : Option (Cov V)}
    {t t' : Tensor V} {lay lay' : List Slot} {cells cells' : List (Cell V)}
    (W : Written0 cfg iter { s with dataCov := c } t lay cells)
    (W' : Written0 cfg iter { s with dataCov := c' } t' lay' cells') : Spec.withoutCov t = Spec.withoutCov t' := by
  obtain ⟨h1, h2, h3, h4, h5, h6, h7, h8, h9, h10, h11, h12, h13, h14, h15, h16, h17, h18, h19, h20⟩ := W
  obtain ⟨k1, k2, k3, k4, k5, k6, k7, k8, k9, k10, k11, k12, k13, k14, k15, k16, k17, k18, k19, k20⟩ := W'
  have e : ∀ {α : Type} {x : Res α} {a b : α}, x = .ok a → x = .ok b → a = b := fun h k => Except.ok.inj (h.symm.trans k)
  have e1 := e h1 k1
  have e2 := e h2 k2
  have e3 := h3.trans k3.symm
  have e4 := e h4 k4
  subst e4
  have h5' : cellsOf s t'.procs lay = .ok cells := by rw [← e1, ← cellsOf_dataCov s c]; exact h5
  rw [cellsOf_dataCov] at k5
  have e5 := e h5' k5
  subst e5
  have e6 : t.sumw = t'.sumw := e h6 (by rw [e3]; exact k6)
  have e7 : t.sumw2 = t'.sumw2 := e h7 (by rw [e3]; exact k7)
  have e8 : t.dataObs = t'.dataObs := e h8 (by rw [e2]; exact k8)
  have e9 : t.dataVar = t'.dataVar := e h9 (by rw [e2]; exact k9)
  have e10 : t.pseudo = t'.pseudo := e h10 (by rw [e2]; exact k10)
  have e11 : t.systs = t'.systs := h11.trans k11.symm
  have e12 : t.body = t'.body := e h12 (by rw [e3, e1, e11]; exact k12)
  have e13 := e h13 k13
  have e14 := e h14 k14
  have e15 := e h15 k15
  have e16 := h16.trans k16.symm
  have e17 := h17.trans k17.symm
  have e18 := h18.trans k18.symm
  have e19 := h19.trans k19.symm
  have e20 := h20.trans k20.symm
  unfold Spec.withoutCov
  rw [e1, e2, e3, e6, e7, e8, e9, e10, e11, e12, e13, e14, e15, e16, e17, e18, e19, e20]

theorem write_keeps (cfg : Cfg V) (iter : List String → List String) (s : State V) :
    (write cfg iter s).1 = { s with dataCov := (write cfg iter s).1.dataCov } := by
  have h := (keeps_write (fun s : State V => { s with dataCov := none }) (fun _ _ => rfl) cfg iter).run s
  have h2 : ∀ a b : State V, ({ a with dataCov := none } : State V) = { b with dataCov := none } →
      a = { b with dataCov := a.dataCov } := by
    intro a b hab
    cases a; cases b
    simp only [State.mk.injEq] at hab ⊢
    simp_all
  exact h2 _ _ h

theorem step_write (cfg : Cfg V) (iter : List String → List String) (s : State V) :
    (step cfg (.write iter) s).1 = (write cfg iter s).1 := by
  show ((write cfg iter >>= fun _ => M.pure ()) s).1 = _
  rw [bind_def]
  rcases write cfg iter s with ⟨s', r⟩
  cases r <;> rfl

theorem writes_keep (cfg : Cfg V) (ws : List (List String → List String)) : ∀ s : State V,
    ∃ c, runOps cfg s (ws.map .write) = { s with dataCov := c } := by
  induction ws with
  | nil => exact fun s => ⟨s.dataCov, rfl⟩
  | cons w ws ih =>
    intro s
    obtain ⟨c, hc⟩ := ih (step cfg (.write w) s).1
    refine ⟨c, ?_⟩
    have hst := step_write cfg w s
    show runOps cfg (step cfg (.write w) s).1 (ws.map .write) = _
    rw [hc, hst, write_keeps]

/-! ### C16 -/

/-- C16: apart from the covariance, every file written by the same writer, after any number of earlier `write` calls, has
the same content. -/
theorem c16_content (cfg : Cfg V) (ops : List (Op V)) (ws : List (List String → List String))
    (iter : List String → List String) (t t' : Tensor V) (h : (write cfg iter (run cfg ops)).2 = .ok t)
    (h' : (write cfg iter (run cfg (ops ++ ws.map .write))).2 = .ok t') :
    Spec.withoutCov t' = Spec.withoutCov t := by
  unfold run at h h'
  rw [runOps_append] at h'
  obtain ⟨c, hc⟩ := writes_keep cfg ws (runOps cfg {} ops)
  rw [hc] at h'
  obtain ⟨lay, cells, W⟩ := write_ok h
  obtain ⟨lay', cells', W'⟩ := write_ok h'
  exact (written_congr (s := runOps cfg {} ops) (c := (runOps cfg {} ops).dataCov) (c' := c) W.1 W'.1).symm

/-- C16 (no nuisance is booked into the covariance): after any number of `write` calls the file has the same content as
that of the first call, including the covariance. -/
theorem c16_twice_partial (cfg : Cfg V) (ops : List (Op V)) (iter : List String → List String)
    (hit : ∀ l, (iter l).Perm l) (hcov : (run cfg ops).covariance = []) (t : Tensor V)
    (h : (write cfg iter (run cfg ops)).2 = .ok t) (k : Nat) :
    (write cfg iter (run cfg (ops ++ List.replicate k (.write iter)))).2 = .ok t := by
  have hnil : iter [] = [] := List.Perm.eq_nil (hit [])
  unfold run at h hcov ⊢
  rw [runOps_append]
  generalize runOps cfg {} ops = s at h hcov
  -- one successful write leaves a state in which the next one is the same
  have key : ∀ s : State V, s.covariance = [] → (write cfg iter s).2 = .ok t →
      (step cfg (.write iter) s).1.covariance = [] ∧ (write cfg iter (step cfg (.write iter) s).1).2 = .ok t := by
    intro s hcov h
    obtain ⟨lay, cells, W⟩ := write_ok h
    obtain ⟨c, s', hc, hw, hs'⟩ := W.cov
    have hst : (step cfg (.write iter) s).1 = s' := by
      rw [← hs']
      exact step_write cfg iter s
    have hs1 : s' = { s with dataCov := c } := by
      have hl : iter s.covariance = [] := by rw [hcov, hnil]
      rw [hl] at hw
      cases c with
      | none => exact (Prod.mk.inj hw).1.symm
      | some c =>
        unfold writeCov at hw
        obtain ⟨s1, c1, hl, hw⟩ := bind_ok hw
        cases hl
        obtain ⟨full, _, hw⟩ := lift_bind_ok hw
        exact (Prod.mk.inj hw).1.symm
    rw [hst, hs1]
    refine ⟨hcov, ?_⟩
    have hc2 : initCov cfg.addBBB { s with dataCov := c } t.nbins t.dataVar = .ok c := by
      unfold initCov at hc ⊢
      cases c with
      | some c => simp
      | none =>
        split at hc
        · rename_i hcond
          cases hd : diagVar t.nbins t.dataVar with
          | error e => rw [hd] at hc; cases hc
          | ok d => rw [hd] at hc; cases hc
        · rename_i hcond
          have : s.dataCov = none := Except.ok.inj hc
          rw [this] at hcond
          rw [if_neg hcond]
    rw [hs1] at hw
    have hw2 := write_of (cfg := cfg) (iter := iter) (s := { s with dataCov := c }) (W.1.dataCov c) hc2 hw
    rw [hw2]
  induction k generalizing s with
  | zero => exact h
  | succ k ih =>
    obtain ⟨h1, h2⟩ := key s hcov h
    exact ih _ h2 h1

/-! ### The covariance of the first file -/

theorem covLoop_ok {N : Nat} {cells : List (Cell V)} {l : List String} : ∀ {cov cov' : Cov V} {s s' : State V},
    covLoop N cells cov l s = (s', .ok cov') → cov.n = N →
    ∃ v : String → Nat → V, (∀ m ∈ l, systVector N cells m = .ok (v m)) ∧ cov'.n = N ∧
      ∀ i j, cov'.val i j = cov.val i j + (l.map fun m => v m i * v m j).sum := by
  induction l with
  | nil =>
    intro cov cov' s s' h hn
    cases h
    exact ⟨fun _ _ => 0, by simp, hn, by simp⟩
  | cons x l ih =>
    intro cov cov' s s' h hn
    unfold covLoop at h
    obtain ⟨f, hf, h⟩ := lift_bind_ok h
    obtain ⟨c1, hc1, h⟩ := lift_bind_ok h
    rw [modify_bind] at h
    unfold addOuter at hc1
    rw [if_pos hn] at hc1
    cases hc1
    obtain ⟨v, hv, hn', hval⟩ := ih h hn
    refine ⟨fun m => if m = x then f else v m, ?_, hn', fun i j => ?_⟩
    · intro m hm
      by_cases hmx : m = x
      · subst hmx; dsimp only; rw [if_pos rfl]; exact hf
      · dsimp only; rw [if_neg hmx]
        rcases List.mem_cons.1 hm with h | h
        · exact absurd h hmx
        · exact hv m h
    · have hsum : (l.map fun m => (if m = x then f else v m) i * (if m = x then f else v m) j) =
          l.map fun m => v m i * v m j := by
        apply List.map_congr_left
        intro m hm
        split
        · rename_i hmx
          subst hmx
          have := hv m hm
          rw [hf] at this
          rw [Except.ok.inj this]
        · rfl
      rw [hval, List.map_cons, List.sum_cons, hsum]
      dsimp only
      rw [if_pos rfl, add_assoc]

/-- contribution of one cell to a nuisance -/
def cellPart (m : String) (b : Nat) (c : Cell V) : V :=
  match c.avg.get? m with
  | none => 0
  | some v => if c.start ≤ b ∧ b < c.start + c.n then Spec.elem v.values (b - c.start) 0 else 0

theorem systVector_sum {N : Nat} {cells : List (Cell V)} {m : String} {f : Nat → V}
    (h : systVector N cells m = .ok f) (hN : ∀ c ∈ cells, c.start + c.n ≤ N) (b : Nat) :
    f b = (cells.map (cellPart m b)).sum := by
  unfold systVector at h
  suffices H : ∀ (cells : List (Cell V)) (g f : Nat → V), (∀ c ∈ cells, c.start + c.n ≤ N) →
      loop (fun f c => match c.avg.get? m with
        | none => .ok f
        | some v => (assign N (fun _ => (0 : V)) c.start c.n v.values).map
          fun g b => if c.start ≤ b ∧ b < c.start + c.n then f b + g b else f b) g cells = .ok f →
      f b = g b + (cells.map (cellPart m b)).sum by
    have := H cells _ f hN h
    rw [this, zero_add]
  intro cells
  induction cells with
  | nil => intro g f _ h; cases h; simp
  | cons c cells ih =>
    intro g f hN h
    unfold loop at h
    rw [List.map_cons, List.sum_cons]
    have hN' : ∀ c ∈ cells, c.start + c.n ≤ N := fun c hc => hN c (by simp [hc])
    unfold cellPart
    cases hv : c.avg.get? m with
    | none =>
      rw [hv] at h
      rw [zero_add]
      exact ih g f hN' h
    | some v =>
      rw [hv] at h
      dsimp only at h ⊢
      cases ha : assign N (fun _ => (0 : V)) c.start c.n v.values with
      | error e => rw [ha] at h; cases h
      | ok g' =>
        rw [ha] at h
        have h1 := ih _ f hN' h
        have h2 := assign_apply ha (hN c (by simp)) (0 : V) b
        rw [h1]
        dsimp only
        by_cases hb : c.start ≤ b ∧ b < c.start + c.n
        · rw [if_pos hb] at h2 ⊢
          rw [if_pos hb, h2, add_assoc]; rfl
        · rw [if_neg hb, if_neg hb, zero_add]; rfl

/-- value of a loop body that may `continue` -/
def optPart {β : Type} (G : β → V) : Res (Option β) → V
  | .ok (some y) => G y
  | _ => 0

theorem collect_sum {α β : Type} {body : α → Res (Option β)} (G : β → V) {l : List α} : ∀ {r : List β},
    collect body l = .ok r → (r.map G).sum = (l.map fun x => optPart G (body x)).sum := by
  induction l with
  | nil => intro r h; cases h; rfl
  | cons x l ih =>
    intro r h
    unfold collect at h
    cases hb : body x with
    | error e => rw [hb] at h; cases h
    | ok o =>
      rw [hb] at h
      dsimp only at h
      cases hc : collect body l with
      | error e => rw [hc] at h; cases h
      | ok rs =>
        rw [hc] at h
        cases h
        rw [List.map_append, List.sum_append, ih hc, List.map_cons, List.sum_cons, hb]
        cases o <;> simp [optPart]

/-- contribution of a slot -/
def slotPart (s : State V) (procs : List String) (m : String) (b : Nat) (sl : Slot) : V :=
  if sl.start ≤ b ∧ b < sl.start + sl.n then (procs.map fun p =>
    match Spec.at2 s.norm sl.name p, Spec.at3 s.logkavg sl.name p m with
    | some _, some v => Spec.elem v.values (b - sl.start) 0
    | _, _ => 0).sum else 0

theorem cellsOf_sum {s : State V} {procs : List String} (m : String) (b : Nat) {lay : List Slot} :
    ∀ {r : List (Cell V)}, cellsOf s procs lay = .ok r →
      (r.map (cellPart m b)).sum = (lay.map (slotPart s procs m b)).sum := by
  induction lay with
  | nil => intro r h; cases h; rfl
  | cons sl lay ih =>
    intro r h
    unfold cellsOf at h
    split at h
    · rename_i l ls h1 h2
      cases h
      rw [List.map_append, List.sum_append, ih h2, List.map_cons, List.sum_cons]
      congr 1
      unfold cellsOfSlot at h1
      split at h1
      · rename_i nc wc ac hc hn hw ha hh
        rw [collect_sum _ h1]
        have hz : procs = procs.zipIdx.map (·.1) := by simp
        unfold slotPart
        conv_rhs => rw [hz, List.map_map]
        have hbody := collect_body_ok h1
        refine (congrArg List.sum (List.map_congr_left (g := fun x : String × Nat =>
            if sl.start ≤ b ∧ b < sl.start + sl.n then
              (match Spec.at2 s.norm sl.name x.1, Spec.at3 s.logkavg sl.name x.1 m with
                | some _, some v => Spec.elem v.values (b - sl.start) 0
                | _, _ => 0) else 0) ?_)).trans ?_
        · intro x hx
          have hx' := hbody x hx
          unfold Spec.at3 Spec.at2
          rw [hn, ha]
          simp only [Option.bind_some]
          cases e1 : nc.get? x.1 with
          | none => simp [optPart]
          | some norm =>
            rw [e1] at hx'
            dsimp only at hx'
            cases e2 : wc.get? x.1 with
            | none => rw [e2] at hx'; obtain ⟨o, ho⟩ := hx'; cases ho
            | some w2 =>
              cases e3 : ac.get? x.1 with
              | none => rw [e2, e3] at hx'; obtain ⟨o, ho⟩ := hx'; cases ho
              | some avg =>
                cases e4 : hc.get? x.1 with
                | none => rw [e2, e3, e4] at hx'; obtain ⟨o, ho⟩ := hx'; cases ho
                | some half =>
                  simp only [Option.bind_some, optPart, cellPart]
                  cases avg.get? m with
                  | none => simp
                  | some v => rfl
        · split
          · rfl
          · simp
      · cases h1
    · cases h
    · cases h

theorem sum_unique {lay : List Slot} (hpw : lay.Pairwise fun a b => a.start + a.n ≤ b.start) {sl : Slot} (hsl : sl ∈ lay)
    {b : Nat} (hb : sl.start ≤ b ∧ b < sl.start + sl.n) (f : Slot → V)
    (hf : ∀ sl' ∈ lay, ¬(sl'.start ≤ b ∧ b < sl'.start + sl'.n) → f sl' = 0) : (lay.map f).sum = f sl := by
  induction lay with
  | nil => cases hsl
  | cons x lay ih =>
    rw [List.pairwise_cons] at hpw
    rw [List.map_cons, List.sum_cons]
    rcases List.mem_cons.1 hsl with rfl | hsl
    · have : (lay.map f).sum = 0 := by
        apply List.sum_eq_zero
        intro y hy
        obtain ⟨z, hz, rfl⟩ := List.mem_map.1 hy
        exact hf z (by simp [hz]) (by have := hpw.1 z hz; omega)
      rw [this, add_zero]
    · rw [ih hpw.2 hsl fun sl' h => hf sl' (by simp [h])]
      have : f x = 0 := hf x (by simp) (by have := hpw.1 sl hsl; omega)
      rw [this, zero_add]

/-- in dense mode all stored objects are dense arrays -/
theorem dense_tables (cfg : Cfg V) (hsp : cfg.sparse = false) (ops : List (Op V)) :
    Tables (fun n => ∃ l, n = .dense l) (fun _ e => ∃ l, e = .dense l) (run cfg ops) := by
  refine tables_run ?_ ops ?_
  · rintro n lk e ⟨l, rfl⟩ he
    simp only [Norm.idx, wrap, bookedLogk, bind, Except.bind, hsp] at he
    split at he
    · cases he
    · cases he; exact ⟨_, rfl⟩
  · intro h name chan sig vars _ n flow hn
    unfold procNorm at hn
    rw [hsp] at hn
    simp only [Bool.false_and, Bool.false_eq_true, if_false] at hn
    split at hn
    · cases hn
    · cases hn; exact ⟨_, rfl⟩

/-- C16 (dense mode, no Monte Carlo statistics in the covariance, covariance as large as the bin axis): the covariance
written by the first `write` call is the registered one, or else the diagonal matrix of the data variances, plus for
each nuisance booked into the covariance the outer product of its variation summed over the processes. -/
theorem c16_cov_partial (cfg : Cfg V) (hsp : cfg.sparse = false) (hbb : cfg.addBBB = false) (ops : List (Op V))
    (hf : Spec.freshNames cfg {} ops) (iter : List String → List String) (hit : ∀ l, (iter l).Perm l) (t : Tensor V)
    (hw : (write cfg iter (run cfg ops)).2 = .ok t) (F : Cov V) (hF : t.fullCov = some F) :
    let s := run cfg ops
    ∃ base : Cov V, (s.dataCov = some base ∨ (s.dataCov = none ∧ base.n = t.nbins ∧
        ∀ i j, i < t.nbins → (i ≠ j → base.val i j = 0) ∧ .fin (base.val i i) = t.dataVar i)) ∧
      (base.n = t.nbinsfull → ∃ v : String → Nat → V,
        (∀ m ∈ s.covariance, ∀ name a b, (name, a, b) ∈ readerFrom 0 t.channelInfo → ∀ i, i < b - a →
          v m (a + i) = (t.procs.map (Spec.contrib s name m i)).sum) ∧
        F.n = t.nbinsfull ∧ ∀ i j, F.val i j = base.val i j + (s.covariance.map fun m => v m i * v m j).sum) := by
  intro s
  obtain ⟨lay, cells, W⟩ := write_ok hw
  obtain ⟨c, s', hc, hwc, _⟩ := W.cov
  have hs : LayInv s := layInv_run cfg ops hf
  obtain ⟨hb, hpw, hcov, hch, hnb⟩ := layoutFrom_bounds W.layout
  obtain ⟨hN, hn⟩ := layInv_sizes hs W.layout W.nbins
  have hR : readerFrom 0 t.channelInfo = lay.map fun sl => (sl.name, sl.start, sl.start + sl.n) := by
    rw [W.channelInfo]
    exact reader_eq W.layout fun n c hc => hs.get hc
  cases c with
  | none => have := (Prod.mk.inj hwc).2; rw [hF] at this; cases this
  | some base =>
    refine ⟨base, ?_, ?_⟩
    · unfold initCov at hc
      split at hc
      · rename_i hcond
        right
        rw [Bool.and_eq_true, Option.isNone_iff_eq_none] at hcond
        refine ⟨hcond.1, ?_⟩
        unfold diagVar at hc
        split at hc
        · rename_i hall
          rw [List.all_eq_true] at hall
          simp only [Except.map, Except.ok.injEq, Option.some.injEq] at hc
          subst hc
          refine ⟨rfl, fun i j hi => ⟨fun hij => by simp [hij], ?_⟩⟩
          have := hall i (by simp [hi])
          obtain ⟨v, hv⟩ := Option.isSome_iff_exists.1 this
          simp only [if_true, hv, Option.getD_some]
          exact (toFin?_eq_some.1 hv).symm
        · cases hc
      · exact .inl (Except.ok.inj hc)
    · intro hbn
      unfold writeCov at hwc
      obtain ⟨s1, c1, hl, hwc⟩ := bind_ok hwc
      obtain ⟨full, hfull, hwc⟩ := lift_bind_ok hwc
      have hfu : some full = t.fullCov := Except.ok.inj (Prod.mk.inj hwc).2
      rw [hF] at hfu
      cases hfu
      rw [hbb] at hfull
      simp only [Bool.false_eq_true, if_false, Except.ok.injEq] at hfull
      subst hfull
      obtain ⟨v, hv, hn', hval⟩ := covLoop_ok hl hbn
      refine ⟨v, ?_, hn', fun i j => ?_⟩
      · intro m hm name a b hr i hi
        rw [hR] at hr
        obtain ⟨sl, hsl, he⟩ := List.mem_map.1 hr
        simp only [Prod.mk.injEq] at he
        obtain ⟨rfl, rfl, rfl⟩ := he
        have hcN : ∀ c ∈ cells, c.start + c.n ≤ t.nbinsfull := by
          intro c hcm
          obtain ⟨sl', hsl', _, e2, e3⟩ := ((mem_cellsOf W.isCells c).1 hcm).slot
          have := (hb sl' hsl').2
          rw [W.nbinsfull, hN, ← e2, ← e3]; omega
        have hin : sl.start ≤ sl.start + i ∧ sl.start + i < sl.start + sl.n := by omega
        rw [systVector_sum (hv m (((hit _).mem_iff).2 hm)) hcN, cellsOf_sum m _ W.isCells,
          sum_unique hpw hsl hin _ (fun sl' _ h => by unfold slotPart; rw [if_neg h])]
        unfold slotPart
        rw [if_pos hin]
        congr 1
        apply List.map_congr_left
        intro p _
        unfold Spec.contrib
        have hd := dense_tables cfg hsp ops
        rw [show sl.start + i - sl.start = i by omega]
        cases e1 : Spec.at2 s.norm sl.name p with
        | none => simp
        | some n =>
          cases e2 : Spec.at3 s.logkavg sl.name p m with
          | none => simp
          | some e =>
            obtain ⟨_, _, l, rfl⟩ := hd.avg _ _ _ _ e2
            rfl
      · rw [hval i j]
        congr 1
        exact (((hit s.covariance).map _).sum_eq)

/-- The code violates C16: `write` adds the outer products in place, so the second file counts them twice. -/
theorem c16_twice_violated : ∃ (cfg : Cfg ℚ) (ops : List (Op ℚ)) (t t' : Tensor ℚ) (F F' : Cov ℚ),
    (write cfg id (run cfg ops)).2 = .ok t ∧ (write cfg id (run cfg (ops ++ [.write id]))).2 = .ok t' ∧
    t.fullCov = some F ∧ t'.fullCov = some F' ∧ F.val 0 0 ≠ F'.val 0 0 := by
  let ops : List (Op ℚ) := [.channel [Ex.ax 1] (some "a") false false, .process (Ex.h [3]) "p" "a" true none,
    .data (Ex.h [3]) "a" none, .normSyst "n" ["p"] "a" [.num 2] true .average {}]
  obtain ⟨t, h1, h2⟩ := written_of (r := (write Ex.cfg id (run Ex.cfg ops)).2)
    (f := fun t => t.fullCov.map fun F => F.val 0 0) (v := some 12) (by decide +kernel)
  obtain ⟨t', h1', h2'⟩ := written_of (r := (write Ex.cfg id (run Ex.cfg (ops ++ [.write id]))).2)
    (f := fun t => t.fullCov.map fun F => F.val 0 0) (v := some 21) (by decide +kernel)
  rw [Option.map_eq_some_iff] at h2 h2'
  obtain ⟨F, hF, hF'⟩ := h2
  obtain ⟨G, hG, hG'⟩ := h2'
  exact ⟨_, ops, t, t', F, G, h1, h1', hF, hG, by rw [hF', hG']; decide⟩

/-- The code violates C16: the Monte Carlo statistics are not added as a diagonal matrix; with one process the variance of
the first bin is added to every element, including the off-diagonal ones. -/
theorem c16_mcstat_violated : ∃ (cfg : Cfg ℚ) (ops : List (Op ℚ)) (t : Tensor ℚ) (F : Cov ℚ), cfg.addBBB = true ∧
    (write cfg id (run cfg ops)).2 = .ok t ∧ (run cfg ops).covariance = [] ∧ t.fullCov = some F ∧
    t.nbinsfull = 2 ∧ F.n = 2 ∧ F.val 0 1 ≠ 0 := by
  let ops : List (Op ℚ) := [.channel [Ex.ax 2] (some "a") false false, .process (Ex.h [3, 4]) "p" "a" true none,
    .data (Ex.h [3, 4]) "a" none]
  obtain ⟨t, h1, h2⟩ := written_of (r := (write { Ex.cfg with addBBB := true } id (run { Ex.cfg with addBBB := true } ops)).2)
    (f := fun t => (t.fullCov.map fun F => (F.n, F.val 0 1), t.nbinsfull)) (v := (some (2, 3), 2)) (by decide +kernel)
  rw [Prod.mk.injEq, Option.map_eq_some_iff] at h2
  obtain ⟨⟨F, hF, hF'⟩, hN⟩ := h2
  rw [Prod.mk.injEq] at hF'
  exact ⟨_, ops, t, F, rfl, h1, by decide +kernel, hF, hN, hF'.1, by rw [hF'.2]; decide⟩

/-- the hypotheses of `c16_cov_partial` are met: two processes share a nuisance booked into the covariance -/
example :
    let ops : List (Op ℚ) := [.channel [Ex.ax 2] (some "a") false false, .process (Ex.h [3, 4]) "p" "a" true none,
      .process (Ex.h [1, 0]) "q" "a" true none, .data (Ex.h [5, 6]) "a" none,
      .normSyst "n" ["p", "q"] "a" [.num 2, .num 3] true .average {}]
    Ex.cfg.sparse = false ∧ Ex.cfg.addBBB = false ∧ Spec.freshNames Ex.cfg {} ops ∧
    (match (write Ex.cfg id (run Ex.cfg ops)).2 with
      | .ok t => t.fullCov.map fun F => (F.n, F.val 0 0, F.val 0 1, F.val 1 1)
      | .error _ => none) = some (2, 5 + 5 * 5, 5 * 4, 6 + 4 * 4) := by
  refine ⟨by decide +kernel, by decide +kernel, ?_, by decide +kernel⟩
  simp only [Spec.freshNames, Spec.addsChannel, Option.getD_some, forall_eq', false_imp_iff, implies_true, and_true]
  decide +kernel

/-- the hypotheses of `c16_twice_partial` are met, with a registered covariance -/
example :
    let ops : List (Op ℚ) := [.channel [Ex.ax 1] (some "a") false false, .process (Ex.h [3]) "p" "a" true none,
      .data (Ex.h [3]) "a" none, .dataCov ⟨1, fun _ _ => 7⟩]
    (run Ex.cfg ops).covariance = [] ∧ (write Ex.cfg id (run Ex.cfg ops)).2.isOk = true := by
  decide +kernel

end Verif.Writer
