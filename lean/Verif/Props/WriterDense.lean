import Verif.Props.WriterSparse

/-!
C07, C10, C15 and C02 on written files: placement of the variations in the dense tensor, the symmetry flag, the pseudo-data
columns, the lookup of sparse variations and the length check of normalisation systematics.
-/

namespace Verif.Writer

open Verif.Logk M

set_option linter.unusedSectionVars false

variable {V : Type} [Field V] [LinearOrder V]

/-! ### The symmetry flag -/

/-- a writer flagged symmetric has no half difference -/
def SymInv (s : State V) : Prop := s.symmetric = true → ∀ c p m, Spec.at3 s.logkhalf c p m = none

def symTab (s : State V) := (s.symmetric, s.logkhalf)

theorem SymInv.of_tab {s s' : State V} (h : symTab s' = symTab s) (hs : SymInv s) : SymInv s' := by
  simp only [symTab, Prod.mk.injEq] at h
  unfold SymInv
  rw [h.1, h.2]; exact hs

theorem keepsSym_bookSystematic (name : String) (toCov : Bool) (o : SystOpts) :
    Keeps symTab (bookSystematic name toCov o : M V Unit) := by
  unfold bookSystematic
  keeps <;> (split <;> [rfl; (try split) <;> rfl])

theorem keepsSym_bookAvg (cfg : Cfg V) (lk : LogkIn V) (chan : String) (proc : Option String) (name : String) :
    Keeps symTab (bookLogk cfg false lk chan proc name) := by
  unfold bookLogk
  simp only [Bool.false_eq_true, if_false]
  keeps
  rfl

theorem keepsFlag_bookLogk (cfg : Cfg V) (half : Bool) (lk : LogkIn V) (chan : String) (proc : Option String)
    (name : String) : Keeps State.symmetric (bookLogk cfg half lk chan proc name) := by
  unfold bookLogk
  cases half
  · simp only [Bool.false_eq_true, if_false]
    keeps
    rfl
  · simp only [if_true]
    keeps
    rfl

theorem presSym_of_keeps {α : Type} {m : M V α} (h : Keeps symTab m) : Pres SymInv m :=
  Pres.of_keeps h fun _ _ h hs => SymInv.of_tab h hs

theorem presSym_computeAsymSyst (cfg : Cfg V) (up down : List V) (name : String) (chan : String) (proc : Option String)
    (symm : Symm) (toCov : Bool) (idx : Option (List Nat)) (o : SystOpts) :
    Pres SymInv (computeAsymSyst cfg up down name proc chan symm toCov idx o) := by
  unfold computeAsymSyst
  refine Pres.bind (Pres.lift _) fun avg => ?_
  cases symm with
  | conservative => exact Pres.pure _
  | average => exact Pres.pure _
  | linear | quadratic =>
    exact Pres.bind (Pres.lift _) fun _ => Pres.bind (presSym_of_keeps (keepsSym_bookAvg ..)) fun _ =>
      Pres.bind (presSym_of_keeps (keepsSym_bookSystematic ..)) fun _ => Pres.pure _
  | none =>
    refine Pres.bind (Pres.raiseIf _ _) fun _ => ⟨fun s hs => ?_⟩
    rw [modify_bind]
    intro ht
    exfalso
    have hk : Pres (fun s : State V => s.symmetric = false) (do
        let hd ← M.lift (zipB (fun u d => ((computeAsym cfg.num .none u d).halfdiff).getD 0) up down)
        bookLogk cfg true (wrap idx hd) chan proc name
        (M.pure (avg, name) : M V (List V × String))) :=
      Pres.bind (Pres.lift _) fun _ => Pres.bind
        (Pres.of_keeps (keepsFlag_bookLogk ..) fun _ _ h hs => by rw [h]; exact hs) fun _ => Pres.pure _
    have := hk.run { s with symmetric := false } rfl
    exact absurd (ht.symm.trans this) (by decide)

theorem presSym_addSystematic (cfg : Cfg V) (x : SystIn V) (name proc chan : String) (kfac : V) (mirror : Bool)
    (symm : Symm) (toCov asDiff : Bool) (o : SystOpts) :
    Pres SymInv (addSystematic cfg x name proc chan kfac mirror symm toCov asDiff o) := by
  unfold addSystematic
  refine Pres.bind ⟨fun s hs => hs⟩ fun s => Pres.bind (Pres.lift _) fun _ => Pres.bind (Pres.lift _) fun _ =>
    Pres.bind (Pres.lift _) fun _ => ?_
  cases x with
  | pair hu hd =>
    exact Pres.bind (Pres.lift _) fun _ => Pres.bind (Pres.lift _) fun _ => Pres.bind (Pres.lift _) fun _ =>
      Pres.bind (Pres.lift _) fun _ => Pres.bind (Pres.lift _) fun _ => Pres.bind (Pres.lift _) fun _ =>
      Pres.bind (Pres.lift _) fun _ => Pres.bind (Pres.lift _) fun _ =>
      Pres.bind (presSym_computeAsymSyst ..) fun _ => Pres.bind (presSym_of_keeps (keepsSym_bookAvg ..)) fun _ =>
      presSym_of_keeps (keepsSym_bookSystematic ..)
  | single h =>
    exact Pres.bind (Pres.raiseIf _ _) fun _ => Pres.bind (Pres.lift _) fun _ => Pres.bind (Pres.lift _) fun _ =>
      Pres.bind (Pres.lift _) fun _ => Pres.bind (Pres.lift _) fun _ =>
      Pres.bind (presSym_of_keeps (keepsSym_bookAvg ..)) fun _ => presSym_of_keeps (keepsSym_bookSystematic ..)

theorem presSym_normOne (cfg : Cfg V) (name chan : String) (toCov : Bool) (symm : Symm) (o : SystOpts)
    (varName p : String) (u : Unc V) : Pres SymInv (normOne cfg name chan toCov symm o varName p u) := by
  unfold normOne
  refine Pres.bind ⟨fun s hs => hs⟩ fun s => Pres.bind (Pres.lift _) fun _ => Pres.bind (Pres.lift _) fun _ => ?_
  dsimp only
  split
  · exact Pres.bind (Pres.lift _) fun _ => Pres.bind (presSym_of_keeps (keepsSym_bookAvg ..)) fun _ => Pres.pure _
  · exact Pres.bind (Pres.lift _) fun _ => Pres.bind (Pres.lift _) fun _ =>
      Pres.bind (presSym_computeAsymSyst ..) fun _ => Pres.bind (presSym_of_keeps (keepsSym_bookAvg ..)) fun _ =>
      Pres.pure _
  · exact Pres.raise _

theorem presSym_normLoop (cfg : Cfg V) (name chan : String) (toCov : Bool) (symm : Symm) (o : SystOpts)
    (l : List (String × Unc V)) : ∀ varName, Pres SymInv (normLoop cfg name chan toCov symm o varName l) := by
  induction l with
  | nil => exact fun v => Pres.pure v
  | cons x l ih =>
    obtain ⟨p, u⟩ := x
    exact fun v => Pres.bind (presSym_normOne ..) fun v' => ih v'

theorem presSym_addProcess (cfg : Cfg V) (h : HIn V) (name chan : String) (sig : Bool) (vars : Option (HIn V)) :
    Pres SymInv (addProcess cfg h name chan sig vars) := by
  refine ⟨fun s hs => ?_⟩
  unfold addProcess
  rw [read_bind]
  cases hc : checkHist cfg s.channels h chan with
  | error e => exact hs
  | ok c =>
    rw [lift_ok_bind]
    cases hn : s.norm.get chan with
    | error e => exact hs
    | ok nc =>
      rw [lift_ok_bind, raiseIf_bind]
      split
      · exact hs
      rw [modify_bind, read_bind]
      set s1 := (if sig = true then { s with signals := setAdd s.signals name }
          else { s with bkgs := setAdd s.bkgs name } : State V) with hs1
      have hs1t : SymInv s1 := hs.of_tab (by rw [hs1]; split <;> rfl)
      clear_value s1
      cases ha : upd2 s1.logkavg chan name [] with
      | error e => exact hs1t
      | ok avg =>
        rw [lift_ok_bind]
        cases hb : upd2 s1.logkhalf chan name [] with
        | error e => exact hs1t
        | ok half =>
          rw [lift_ok_bind, modify_bind]
          have hs2 : SymInv { s1 with logkavg := avg, logkhalf := half } := by
            intro ht c p m
            show Spec.at3 half c p m = none
            rw [at3_upd2_nil hb]
            split
            · rfl
            · exact hs1t ht c p m
          refine Pres.run (I := SymInv) ?_ _ hs2
          exact Pres.bind (Pres.lift _) fun _ => Pres.bind (Pres.lift _) fun _ => Pres.bind ⟨fun s hs => hs⟩ fun _ =>
            Pres.bind (Pres.lift _) fun _ => Pres.bind (Pres.lift _) fun _ => ⟨fun s hs => hs⟩

theorem presSym_addChannel (axes : List Axis) (name : Option String) (masked flow : Bool) :
    Pres SymInv (addChannel axes name masked flow : M V Unit) := by
  refine ⟨fun s hs => ?_⟩
  unfold addChannel
  rw [raiseIf_bind]
  split
  · exact hs
  rw [read_bind]
  intro ht c p m
  show Spec.at3 (s.logkhalf.set (name.getD s!"ch{s.channels.length}") []) c p m = none
  rw [at3_of_set_nil]
  split
  · rfl
  · exact hs ht c p m

/-- C07: a tensor flagged symmetric (the flag drops all half differences on writing and reading) never has one. -/
theorem c07_symmetric_flag (cfg : Cfg V) (ops : List (Op V)) (h : (run cfg ops).symmetric = true) (c p m : String) :
    Spec.at3 (run cfg ops).logkhalf c p m = none := by
  suffices H : ∀ (ops : List (Op V)) (s : State V), SymInv s → SymInv (runOps cfg s ops) from
    H ops {} (fun _ _ _ _ => rfl) h c p m
  intro ops
  induction ops with
  | nil => exact fun s hs => hs
  | cons op ops ih =>
    intro s hs
    refine ih _ ?_
    have k : ∀ {m : M V Unit}, Keeps symTab m → SymInv (m s).1 := fun hk => hs.of_tab (hk.run s)
    cases op with
    | dataCov c => exact k ⟨fun _ => rfl⟩
    | pseudo h name c => exact k (keeps_addPseudo _ (fun _ _ _ => rfl) ..)
    | data h c vars => exact k (keeps_addData _ (fun _ _ _ => rfl) ..)
    | write it => exact k (Keeps.bind (keeps_write _ (fun _ _ => rfl) ..) fun _ => Keeps.pure _)
    | channel a n m f => exact (presSym_addChannel a n m f).run s hs
    | process h name c sig vars => exact (presSym_addProcess cfg h name c sig vars).run s hs
    | normSyst name procs c u t sy o =>
      refine Pres.run (I := SymInv) ?_ s hs
      exact Pres.bind (Pres.raiseIf _ _) fun _ => Pres.bind (presSym_normLoop ..) fun _ =>
        presSym_of_keeps (keepsSym_bookSystematic ..)
    | syst x name proc c kf m sy t d o => exact (presSym_addSystematic cfg ..).run s hs

/-! ### The dense variation tensor -/

/-- the value of a variation booked in dense mode in bin `i` of its channel -/
def Spec.denseVar : LogkE V → Nat → V
  | .dense l, i => Spec.elem l i 0
  | .sparse _, _ => 0

/-- C07: in every file written in dense mode (channel names used once), the variation tensor holds at each bin, process and
nuisance the average (index 0) and half difference (index 1) booked for that channel, process and nuisance name, and zero
where nothing is booked. -/
theorem c07_dense_written (cfg : Cfg V) (hsp : cfg.sparse = false) (ops : List (Op V)) (hf : Spec.freshNames cfg {} ops)
    (iter : List String → List String) (t : Tensor V) (hw : (write cfg iter (run cfg ops)).2 = .ok t) :
    let s := run cfg ops
    let R := readerFrom 0 t.channelInfo
    ∃ norm logk, t.body = .dense norm logk ∧
    ∀ name a b, (name, a, b) ∈ R → ∀ ip proc, t.procs[ip]? = some proc → ∀ i, i < b - a →
      ∀ is m, t.systs[is]? = some m → ∀ half,
      logk (a + i) ip (if half then 1 else 0) is =
        match Spec.bookedVar s half name proc m with
        | some e => Spec.denseVar e i
        | none => 0 := by
  intro s R
  have hs : LayInv s := layInv_run cfg ops hf
  obtain ⟨lay, cells, W⟩ := write_ok hw
  obtain ⟨hb, hpw, hcov, hch, hnb⟩ := layoutFrom_bounds W.layout
  obtain ⟨hN, hn⟩ := layInv_sizes hs W.layout W.nbins
  have hR : R = lay.map fun sl => (sl.name, sl.start, sl.start + sl.n) := by
    show readerFrom 0 t.channelInfo = _
    rw [W.channelInfo]
    exact reader_eq W.layout fun n c hc => hs.get hc
  have hcells := mem_cellsOf W.isCells
  have hbody := W.body
  rw [hsp] at hbody
  unfold fillBody at hbody
  simp only [Bool.false_eq_true, if_false] at hbody
  split at hbody
  rotate_left
  · cases hbody
  · cases hbody
  rename_i norm logk hnorm hlogk
  refine ⟨norm, logk, (Except.ok.inj hbody).symm, ?_⟩
  intro name a b h ip proc hproc i hi is m hm half
  rw [hR] at h
  obtain ⟨sl, hsl, he⟩ := List.mem_map.1 h
  simp only [Prod.mk.injEq] at he
  obtain ⟨rfl, rfl, rfl⟩ := he
  have hi' : i < sl.n := by omega
  have hsym := c07_symmetric_flag cfg ops
  have havg : ∀ c ∈ cells, ∀ m, Spec.at3 s.logkavg c.chan c.proc m = c.avg.get? m := by
    intro c hc m
    obtain ⟨nc, h1, h2⟩ := ((hcells c).1 hc).avg
    unfold Spec.at3 Spec.at2; rw [h1, Option.bind_some, h2]; rfl
  have hhalf : ∀ c ∈ cells, ∀ m, Spec.at3 s.logkhalf c.chan c.proc m = c.half.get? m := by
    intro c hc m
    obtain ⟨nc, h1, h2⟩ := ((hcells c).1 hc).half
    unfold Spec.at3 Spec.at2; rw [h1, Option.bind_some, h2]; rfl
  have hcellN : ∀ c ∈ cells, c.start + c.n ≤ t.nbinsfull := by
    intro c hc
    obtain ⟨sl', hsl', _, e2, e3⟩ := ((hcells c).1 hc).slot
    have := (hb sl' hsl').2
    rw [W.nbinsfull, hN, ← e2, ← e3]; omega
  -- every assignment comes from a cell
  have htask : ∀ k ∈ cells.flatMap (tasksOfCell t.systs), k.cell ∈ cells ∧ k ∈ tasksOfCell t.systs k.cell := by
    intro k hk
    obtain ⟨c, hc, hkc⟩ := List.mem_flatMap.1 hk
    obtain ⟨_, _, _, _, e, _⟩ := mem_tasks.1 hkc
    rw [e]; exact ⟨hc, hkc⟩
  set kk := (if half then 1 else 0 : Nat) with hkk
  have hkk' : kk = 1 ↔ half = true := by rw [hkk]; cases half <;> simp
  let cov : LogkTask V → Prop := fun k => ip = k.cell.iproc ∧ kk = k.k ∧ is = k.isyst ∧
    k.cell.start ≤ sl.start + i ∧ sl.start + i < k.cell.start + k.cell.n
  have hd : DecidablePred cov := fun k => inferInstanceAs (Decidable (_ ∧ _ ∧ _ ∧ _ ∧ _))
  have hnosym : ∀ k ∈ cells.flatMap (tasksOfCell t.systs), (s.symmetric && k.k == 1) = false := by
    intro k hk
    cases hsy : s.symmetric with
    | false => rfl
    | true =>
      rw [Bool.true_and, beq_eq_false_iff_ne]
      intro hk1
      obtain ⟨hc, hkc⟩ := htask k hk
      obtain ⟨m', v, _, _, _, ⟨h0, _⟩ | ⟨_, h2⟩⟩ := mem_tasks.1 hkc
      · omega
      · rw [← hhalf _ hc] at h2
        rw [hsym hsy] at h2
        cases h2
  have obs := loop_obs (fun f : Nat → Nat → Nat → Nat → V => f (sl.start + i) ip kk is) cov
    (fun k => Spec.denseVar k.vals (sl.start + i - k.cell.start)) (l := cells.flatMap (tasksOfCell t.systs))
    (fun f k f' hk hb => by
      rw [hnosym k hk] at hb
      simp only [Bool.false_eq_true, if_false] at hb
      cases hv : k.vals with
      | sparse l => rw [hv] at hb; cases hb
      | dense l =>
        rw [hv] at hb
        dsimp only at hb
        cases ha : assign t.nbinsfull (fun b => f b k.cell.iproc k.k k.isyst) k.cell.start k.cell.n l with
        | error e => rw [ha] at hb; cases hb
        | ok g =>
          rw [ha] at hb
          cases hb
          dsimp only
          have hap := assign_apply ha (hcellN _ (htask k hk).1) 0 (sl.start + i)
          by_cases hp : ip = k.cell.iproc ∧ kk = k.k ∧ is = k.isyst
          · rw [if_pos hp, hap]
            by_cases hr : k.cell.start ≤ sl.start + i ∧ sl.start + i < k.cell.start + k.cell.n
            · rw [if_pos hr, if_pos (show cov k from ⟨hp.1, hp.2.1, hp.2.2, hr⟩)]; rfl
            · rw [if_neg hr, if_neg (show ¬ cov k from fun hc => hr hc.2.2.2), hp.1, hp.2.1, hp.2.2]
          · rw [if_neg hp, if_neg (show ¬ cov k from fun hc => hp ⟨hc.1, hc.2.1, hc.2.2.1⟩)]) hlogk
  have huniq : ∀ k ∈ cells.flatMap (tasksOfCell t.systs), cov k →
      k.cell.start = sl.start ∧ Spec.bookedVar s half sl.name proc m = some k.vals := by
    intro k hk hcv
    obtain ⟨hc, hkc⟩ := htask k hk
    have hic := (hcells _).1 hc
    obtain ⟨sl', hsl', e1, e2, e3⟩ := hic.slot
    have : sl' = sl := layout_unique hpw hsl' hsl (i := sl.start + i)
      (by rw [e2, e3]; exact hcv.2.2.2) ⟨by omega, by omega⟩
    subst this
    have hpr : k.cell.proc = proc := by
      have := hic.proc
      rw [← hcv.1, hproc] at this
      exact (Option.some.inj this).symm
    obtain ⟨m', v, h1, h2, _, h3⟩ := mem_tasks.1 hkc
    rw [← hcv.2.2.1, hm] at h1
    cases h1
    rw [← havg _ hc, ← e1, hpr] at h2
    refine ⟨e2.symm, ?_⟩
    unfold Spec.bookedVar
    rw [h2]
    dsimp only
    rcases h3 with ⟨h0, hv⟩ | ⟨h1, hv⟩
    · have : half = false := by
        rw [← Bool.not_eq_true, ← hkk', hcv.2.1, h0]; omega
      rw [this, if_neg (by decide), hv]
    · have : half = true := by rw [← hkk', hcv.2.1, h1]
      rw [this, if_pos rfl, e1, ← hpr, hhalf _ hc]; exact hv
  split
  · rename_i e hbv
    -- the variation is booked: one assignment writes it
    have hav : ∃ v, Spec.at3 s.logkavg sl.name proc m = some v ∧
        ((half = false ∧ e = v) ∨ (half = true ∧ Spec.at3 s.logkhalf sl.name proc m = some e)) := by
      unfold Spec.bookedVar at hbv
      split at hbv
      · cases hbv
      · rename_i v hv
        refine ⟨v, hv, ?_⟩
        cases half with
        | false => exact .inl ⟨rfl, (Option.some.inj hbv).symm⟩
        | true => exact .inr ⟨rfl, hbv⟩
    obtain ⟨v, hv, hcase⟩ := hav
    have hT := tables_run (cfg := cfg) (P := fun _ => True) (Q := fun _ _ => True) (fun _ _ _ _ _ => trivial) ops
      (fun _ _ _ _ _ _ _ _ _ => trivial)
    obtain ⟨n, hn2, _⟩ := hT.avg _ _ _ _ hv
    unfold Spec.at2 at hn2
    cases hnc : (run cfg ops).norm.get? sl.name with
    | none => rw [hnc] at hn2; cases hn2
    | some nc =>
      rw [hnc, Option.bind_some] at hn2
      obtain ⟨c, hc, h1, h2, h3⟩ := cell_exists W.isCells hsl hproc hnc hn2
      obtain ⟨sl', hsl', e1, e2, e3⟩ := ((hcells c).1 hc).slot
      have : sl' = sl := layout_unique hpw hsl' hsl (i := sl.start + i) (by omega) (by omega)
      subst this
      have hpr : c.proc = proc := by
        have := ((hcells c).1 hc).proc
        rw [h1, hproc] at this; exact (Option.some.inj this).symm
      have hk : (⟨c, is, kk, e⟩ : LogkTask V) ∈ tasksOfCell t.systs c := by
        refine mem_tasks.2 ⟨m, v, hm, by rw [← havg c hc, ← e1, hpr]; exact hv, rfl, ?_⟩
        rcases hcase with ⟨rfl, rfl⟩ | ⟨rfl, h2⟩
        · exact .inl ⟨rfl, rfl⟩
        · exact .inr ⟨rfl, by rw [← hhalf c hc, ← e1, hpr]; exact h2⟩
      refine obs.2 _ ⟨_, List.mem_flatMap.2 ⟨c, hc, hk⟩, h1.symm, rfl, rfl, ?_⟩ fun k hk hcv => ?_
      · dsimp only; omega
      · obtain ⟨h4, h5⟩ := huniq k hk hcv
        rw [hbv] at h5
        cases h5
        rw [h4]
        congr 1
        omega
  · rename_i hbv
    exact obs.1 fun k hk hcv => by
      have := (huniq k hk hcv).2
      rw [hbv] at this; cases this

/-! ### Pseudo-data -/

/-- C02 (with pairwise distinct channel names): in every written file, column `j` of the pseudo-data holds, in the bins of
each fitted channel, the set registered for that channel under the `j`-th written name. -/
theorem c02_pseudodata (cfg : Cfg V) (ops : List (Op V)) (hf : Spec.freshNames cfg {} ops)
    (iter : List String → List String) (t : Tensor V) (hw : (write cfg iter (run cfg ops)).2 = .ok t) :
    ∀ name a b, (name, a, b) ∈ readerFrom 0 t.channelInfo → ∀ c, (run cfg ops).channels.get? name = some c →
      c.masked = false → ∀ j nm, t.pseudoNames[j]? = some nm →
      ∃ l, Spec.at2 (run cfg ops).pseudo name nm = some l ∧
        ∀ i, i < b - a → t.pseudo (a + i) j = Spec.elem l i (.fin 0) := by
  intro name a b h c hc hm j nm hj
  have hs : LayInv (run cfg ops) := layInv_run cfg ops hf
  obtain ⟨lay, cells, W⟩ := write_ok hw
  obtain ⟨hb, hpw, hcov, hch, hnb⟩ := layoutFrom_bounds W.layout
  obtain ⟨hN, hn⟩ := layInv_sizes hs W.layout W.nbins
  have hmask := layout_masked W.layout hs.sorted
  rw [W.channelInfo, reader_eq W.layout fun n c hc => hs.get hc] at h
  obtain ⟨sl, hsl, he⟩ := List.mem_map.1 h
  simp only [Prod.mk.injEq] at he
  obtain ⟨rfl, rfl, rfl⟩ := he
  have hslc : (run cfg ops).channels.get? sl.name = some sl.chan := Dict.get?_of_mem _ _ _ hs.nodup (by
      have : (sl.name, sl.chan) ∈ lay.map fun sl => (sl.name, sl.chan) := List.mem_map.2 ⟨sl, hsl, rfl⟩
      rw [hch] at this; exact this)
  rw [hslc] at hc; cases hc
  have hbd : ∀ sl ∈ lay, sl.chan.masked = false → sl.start + sl.n ≤ t.nbins := by
    intro sl' hsl' hm'
    have := (hmask sl' hsl').1 hm'
    rw [hn]; omega
  have hP := W.pseudo
  rw [← W.pseudoNames] at hP
  have hjz : (nm, j) ∈ t.pseudoNames.zipIdx := List.mk_mem_zipIdx_iff_getElem?.2 hj
  -- what one channel writes
  let body : Slot → (Nat → Nat → FVal V) → String × Nat → Res (Nat → Nat → FVal V) := fun sl f e =>
    match (run cfg ops).pseudo.get? sl.name with
      | some dc => match dc.get? e.1 with
        | some l => assignCol t.nbins f e.2 sl.start sl.n l
        | none => .error .key
      | none => .error .key
  have hbody : ∀ (sl : Slot) (f : Nat → Nat → FVal V) (e : String × Nat) f', body sl f e = .ok f' →
      ∃ l, Spec.at2 (run cfg ops).pseudo sl.name e.1 = some l ∧ assignCol t.nbins f e.2 sl.start sl.n l = .ok f' := by
    intro sl f e f' h
    simp only [body] at h
    unfold Spec.at2
    cases hd : (run cfg ops).pseudo.get? sl.name with
    | none => rw [hd] at h; cases h
    | some dc =>
      rw [hd] at h
      dsimp only at h
      rw [Option.bind_some]
      cases hl : dc.get? e.1 with
      | none => rw [hl] at h; cases h
      | some l => rw [hl] at h; exact ⟨l, rfl, h⟩
  have hone : ∀ (sl : Slot), sl.start + sl.n ≤ t.nbins → ∀ (f f' : Nat → Nat → FVal V),
      loop (body sl) f t.pseudoNames.zipIdx = .ok f' →
      ∃ l, Spec.at2 (run cfg ops).pseudo sl.name nm = some l ∧
        ∀ b, f' b j = if sl.start ≤ b ∧ b < sl.start + sl.n then Spec.elem l (b - sl.start) (.fin 0) else f b j := by
    intro sl hsl f f' hl
    obtain ⟨_, _, hb⟩ := loop_body_ok hl _ hjz
    obtain ⟨l, h1, _⟩ := hbody _ _ _ _ hb
    refine ⟨l, h1, fun b => ?_⟩
    have ho := loop_obs (fun f : Nat → Nat → FVal V => f b j)
      (fun e : String × Nat => e.2 = j ∧ sl.start ≤ b ∧ b < sl.start + sl.n)
      (fun _ => Spec.elem l (b - sl.start) (.fin 0)) (l := t.pseudoNames.zipIdx) (fun f e f' he hb => by
        obtain ⟨l', h1', h2⟩ := hbody _ _ _ _ hb
        have := assignCol_apply h2 hsl (.fin 0) b j
        rw [this]
        by_cases hc : j = e.2 ∧ sl.start ≤ b ∧ b < sl.start + sl.n
        · have hc' : e.2 = j ∧ sl.start ≤ b ∧ b < sl.start + sl.n := ⟨hc.1.symm, hc.2⟩
          rw [if_pos hc, if_pos hc']
          have hnm : e.1 = nm := by
            have h3 := List.mk_mem_zipIdx_iff_getElem?.1 (show (e.1, e.2) ∈ _ from he)
            rw [← hc.1, hj] at h3; exact (Option.some.inj h3).symm
          rw [hnm, h1] at h1'
          cases h1'; rfl
        · rw [if_neg hc, if_neg fun h => hc ⟨h.1.symm, h.2⟩]) hl
    by_cases hc : sl.start ≤ b ∧ b < sl.start + sl.n
    · rw [if_pos hc]
      exact ho.2 _ ⟨_, hjz, rfl, hc⟩ fun _ _ _ => rfl
    · rw [if_neg hc]
      exact ho.1 fun e _ h => hc h.2
  unfold fillPseudo at hP
  change loop (fun f sl => if sl.chan.masked then .ok f else loop (body sl) f t.pseudoNames.zipIdx) _ lay = _ at hP
  obtain ⟨f1, f2, hf2⟩ := loop_body_ok hP sl hsl
  rw [hm] at hf2
  simp only [Bool.false_eq_true, if_false] at hf2
  obtain ⟨l, hl, _⟩ := hone sl (hbd sl hsl hm) _ _ hf2
  refine ⟨l, hl, fun i hi => ?_⟩
  refine (loop_obs (fun f : Nat → Nat → FVal V => f (sl.start + i) j)
    (fun c : Slot => c.chan.masked = false ∧ c.start ≤ sl.start + i ∧ sl.start + i < c.start + c.n)
    (fun c => Spec.elem ((Spec.at2 (run cfg ops).pseudo c.name nm).getD []) (sl.start + i - c.start) (.fin 0))
    (l := lay) ?_ hP).2 _ ⟨sl, hsl, hm, by omega, by omega⟩ ?_
  · intro f c f' hc hb
    cases hmc : c.chan.masked with
    | true => rw [hmc] at hb; cases hb; simp
    | false =>
      rw [hmc] at hb
      simp only [Bool.false_eq_true, if_false] at hb
      obtain ⟨lc, h1, h2⟩ := hone c (hbd c hc hmc) _ _ hb
      rw [h2, h1]
      simp
  · intro c hc hcv
    have : c = sl := layout_unique hpw hc hsl hcv.2 ⟨by omega, by omega⟩
    subst this
    rw [hl, Option.getD_some]
    congr 1
    omega

/-! ### Normalisation systematics with the wrong number of uncertainties -/

/-- C15: several uncertainties whose number differs from the number of processes are rejected and nothing is booked. -/
theorem c15_lengths (cfg : Cfg V) (name : String) (procs : List String) (chan : String) (unc : List (Unc V)) (toCov : Bool)
    (symm : Symm) (o : SystOpts) (h1 : unc.length ≠ 1) (h2 : procs.length ≠ unc.length) (s : State V) :
    step cfg (.normSyst name procs chan unc toCov symm o) s = (s, .error .runtime) := by
  show addNormSystematic cfg name procs chan unc toCov symm o s = _
  unfold addNormSystematic
  rw [raiseIf_bind, if_pos]
  simp [h1, h2]

example : step Ex.cfg (.normSyst "lumi" ["a", "b", "c"] "ch" [.num 2, .num 3] false .average {}) {} =
    (({} : State ℚ), .error .runtime) :=
  c15_lengths Ex.cfg _ _ _ _ _ _ _ (by decide) (by decide) _

/-! ### Lookup of sparse variations -/

theorem countP_sorted {α : Type} : ∀ {l : List (Nat × α)}, (l.map (·.1)).Pairwise (· < ·) → ∀ {i : Nat} {e : Nat × α},
    l[l.countP fun e => e.1 < i]? = some e → l.find? (fun e => e.1 == i) = if e.1 = i then some e else none
  | [], _, _, _, h => by simp at h
  | x :: l, hs, i, e, h => by
    rw [List.map_cons, List.pairwise_cons] at hs
    by_cases hx : x.1 < i
    · rw [List.countP_cons_of_pos (by simpa using hx), List.getElem?_cons_succ] at h
      rw [List.find?_cons_of_neg (by simp; omega)]
      exact countP_sorted hs.2 h
    · have h0 : l.countP (fun e => e.1 < i) = 0 := by
        rw [List.countP_eq_zero]
        intro y hy
        have := hs.1 y.1 (List.mem_map.2 ⟨y, hy, rfl⟩)
        simp; omega
      rw [List.countP_cons_of_neg (by simpa using hx), h0, List.getElem?_cons_zero, Option.some.injEq] at h
      subst h
      by_cases he : x.1 = i
      · rw [if_pos he, List.find?_cons_of_pos (by simp [he])]
      · rw [if_neg he, List.find?_cons_of_neg (by simp [he]), List.find?_eq_none]
        intro y hy
        have := hs.1 y.1 (List.mem_map.2 ⟨y, hy, rfl⟩)
        simp; omega

/-- C10: whenever the lookup of a sparse variation at the bins of a sparse template succeeds, it gives the same numbers as
converting the variation to a dense array and reading those bins. -/
theorem c10_lookup_partial (h : HIn V) (flow : Bool) (hsp : h.isSparse = true)
    (hnd : ((h.flatCsr flow).2.map (·.1)).Nodup) (indices : List Nat) (hin : ∀ i ∈ indices, i < (h.flatCsr flow).1)
    (vs : List (FVal V)) (hv : sparseValuesAt (h.flatCsr flow).2 indices = .ok vs) :
    indices.map (fun i => (h.flatVals flow)[i]?) = vs.map some := by
  have hfl : h.flatVals flow = densify (.fin 0) (h.flatCsr flow).1 (h.flatCsr flow).2 := by
    cases h with
    | sparseHist => rfl
    | scipy => rfl
    | hist => cases hsp
    | array => cases hsp
  have hs : ((h.flatCsr flow).2.map (·.1)).Pairwise (· < ·) :=
    ((flatCsr_sorted h flow).and hnd).imp fun h => Nat.lt_of_le_of_ne h.1 h.2
  rw [hfl]
  generalize (h.flatCsr flow).2 = l at *
  generalize (h.flatCsr flow).1 = n at *
  unfold sparseValuesAt at hv
  induction indices generalizing vs with
  | nil => cases hv; rfl
  | cons i is ih =>
    rw [List.mapM_cons] at hv
    cases he : l[l.countP fun e => e.1 < i]? with
    | none => rw [he] at hv; cases hv
    | some e =>
      rw [he] at hv
      dsimp only [bind, Except.bind] at hv
      split at hv
      · cases hv
      · rename_i ws hws
        cases hv
        rw [List.map_cons, List.map_cons, ih ws hws fun j hj => hin j (List.mem_cons_of_mem _ hj)]
        congr 1
        unfold densify
        rw [List.getElem?_map, List.getElem?_range (hin i (by simp)), Option.map_some, countP_sorted hs he]
        split <;> rfl

/-- The code violates C10 here: a sparse variation without an entry at or above a bin of the template makes the lookup
raise (`searchsorted` returns the length), although the dense array has a value there (0). -/
theorem c10_lookup_violated : ∃ (h : HIn ℚ) (i : Nat), h.isSparse = true ∧ (h.flatVals false)[i]? = some (.fin 0) ∧
    sparseValuesAt (h.flatCsr false).2 [i] = .error .index :=
  ⟨.scipy [3] [(0, .fin 1), (1, .fin 2)], 2, rfl, by decide +kernel, by decide +kernel⟩

example : sparseValuesAt ((HIn.scipy [4] [(3, .fin (5 : ℚ)), (1, .fin 2)]).flatCsr false).2 [1, 2, 3] =
    .ok [.fin 2, .fin 0, .fin 5] := by decide +kernel

/-- a dense file with an asymmetric nuisance on the second process of the second channel, and two pseudo-data sets -/
def Ex.denseOps : List (Op ℚ) :=
  [.channel [Ex.ax 1] (some "a") false false, .channel [Ex.ax 2] (some "b") false false,
    .data (Ex.h [7]) "a" none, .data (Ex.h [8, 9]) "b" none,
    .pseudo (Ex.h [1]) (some "x") "a", .pseudo (Ex.h [2, 3]) (some "x") "b",
    .pseudo (Ex.h [4]) (some "y") "a", .pseudo (Ex.h [5, 6]) (some "y") "b",
    .process (Ex.h [1]) "p" "a" false none, .process (Ex.h [2, 4]) "p" "b" false none,
    .process (Ex.h [6, 8]) "q" "b" false none,
    .syst (.pair (Ex.h [8, 11]) (Ex.h [5, 7])) "n" "q" "b" 1 true .none false false {}]

/-- the stored variations of process 1 and the pseudo-data -/
def Ex.denseView (t : Tensor ℚ) : Option (List (ℚ × ℚ) × List (FVal ℚ × FVal ℚ)) :=
  match t.body with
  | .dense _ logk => some ([0, 1, 2].map fun b => (logk b 1 0 0, logk b 1 1 0), [0, 1, 2].map fun b => (t.pseudo b 0, t.pseudo b 1))
  | .sparse _ => none

def Ex.normalCfg : Cfg ℚ := { Ex.cfg with systType := .normal }

set_option synthInstance.maxSize 1000 in
/-- the hypotheses of `c07_dense_written` and `c02_pseudodata` are met -/
example : Spec.freshNames Ex.normalCfg {} Ex.denseOps ∧ ∃ t, (write Ex.normalCfg id (run Ex.normalCfg Ex.denseOps)).2 = .ok t ∧
    Ex.denseView t = some ([(0, 0), (3 / 2, 1 / 2), (2, 1)], [(.fin 1, .fin 4), (.fin 2, .fin 5), (.fin 3, .fin 6)]) := by
  refine ⟨?_, written_of (r := (write Ex.normalCfg id (run Ex.normalCfg Ex.denseOps)).2) (f := Ex.denseView) (by decide +kernel)⟩
  simp only [Ex.denseOps, Spec.freshNames, Spec.addsChannel, Option.getD_some, forall_eq', false_imp_iff, implies_true,
      and_true]
  decide +kernel

end Verif.Writer
