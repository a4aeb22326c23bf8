import Verif.Lemmas.WriteTotal
import Verif.Lemmas.Bookings

/-! Calls that do not concern a cell (channel, process, nuisance) leave its stored variation as it is. -/

namespace Verif.Writer

open Verif.Logk M

set_option linter.unusedSectionVars false

variable {V : Type} [Field V] [LinearOrder V]

/-- the nuisances a call of `add_systematic` books for a name: linear and quadratic symmetrisation of a pair split it into two -/
def Spec.booksName (x : SystIn V) (symm : Symm) (name m : String) : Prop :=
  match x, symm with
  | .pair .., .linear | .pair .., .quadratic => m = name ++ "SymAvg" ∨ m = name ++ "SymDiff"
  | _, _ => m = name

/-- the call asks for a variation of this process in this channel under this nuisance -/
def Spec.touches (chan proc m : String) : Op V → Prop
  | .syst x name p c _ _ symm _ _ _ => c = chan ∧ p = proc ∧ Spec.booksName x symm name m
  | .normSyst name procs c _ _ _ _ => c = chan ∧ proc ∈ procs ∧ m = name
  | _ => False

theorem mem_systNames {x : SystIn V} {symm : Symm} {name m : String} (h : m ∈ systNames x symm name) :
    Spec.booksName x symm name m := by
  cases x with
  | single _ => exact List.mem_singleton.1 h
  | pair _ _ =>
    cases symm <;> simp only [systNames, asymNames, avgName, List.nil_append, List.mem_singleton, List.mem_append] at h
    all_goals first | exact h | exact h.symm

/-- the stored variation of a cell; one that is stored has a template -/
structure Entry (chan proc m : String) (a b : Option (LogkE V)) (s : State V) : Prop where
  avg : Spec.at3 s.logkavg chan proc m = a
  half : Spec.at3 s.logkhalf chan proc m = b
  norm : (a = none ∧ b = none) ∨ ∃ n, Spec.at2 s.norm chan proc = some n

section
variable {cfg : Cfg V} {chan proc m : String} {a b : Option (LogkE V)}

theorem Entry.of_tab {s s' : State V} (h : tab s' = tab s) (hs : Entry chan proc m a b s) : Entry chan proc m a b s' := by
  simp only [tab, Prod.mk.injEq] at h
  exact ⟨by rw [h.2.1]; exact hs.1, by rw [h.2.2]; exact hs.2, by rw [h.1]; exact hs.3⟩

theorem entry_of_keeps {α : Type} {x : M V α} (h : Keeps tab x) : Pres (Entry chan proc m a b) x :=
  Pres.of_keeps h fun _ _ h hs => hs.of_tab h

theorem entry_bookLogk (half : Bool) (lk : LogkIn V) (c : String) (p : Option String) (nm : String)
    (hne : ¬ (c = chan ∧ p = some proc ∧ nm = m)) : Pres (Entry chan proc m a b) (bookLogk cfg half lk c p nm) := by
  refine ⟨fun s hs => ?_⟩
  unfold bookLogk
  rw [read_bind]
  cases p with
  | none => exact hs
  | some q =>
    rw [lift_ok_bind]
    cases hnc : s.norm.get c with
    | error e => exact hs
    | ok nc =>
      rw [lift_ok_bind]
      cases hn : nc.get q with
      | error e => exact hs
      | ok n =>
        rw [lift_ok_bind]
        cases he : bookedLogk cfg n lk with
        | error e => exact hs
        | ok e =>
          rw [lift_ok_bind]
          have hk : ¬ (chan = c ∧ proc = q ∧ m = nm) := fun h => hne ⟨h.1.symm, by rw [h.2.1], h.2.2.symm⟩
          cases half with
          | true =>
            simp only [if_true]
            cases hd : upd3 s.logkhalf c q nm e with
            | error _ => exact hs
            | ok d =>
              refine ⟨hs.1, ?_, hs.3⟩
              show Spec.at3 d chan proc m = b
              rw [upd3_at hd, if_neg hk]; exact hs.2
          | false =>
            simp only [Bool.false_eq_true, if_false]
            cases hd : upd3 s.logkavg c q nm e with
            | error _ => exact hs
            | ok d =>
              refine ⟨?_, hs.2, hs.3⟩
              show Spec.at3 d chan proc m = a
              rw [upd3_at hd, if_neg hk]; exact hs.1

theorem entry_computeAsymSyst (up down : List V) (name : String) (p : Option String) (c : String) (symm : Symm) (toCov : Bool)
    (idx : Option (List Nat)) (o : SystOpts)
    (hne : ∀ nm, nm ∈ avgName symm name :: asymNames symm name → ¬ (c = chan ∧ p = some proc ∧ nm = m)) :
    Pres (Entry chan proc m a b) (computeAsymSyst cfg up down name p c symm toCov idx o) := by
  unfold computeAsymSyst
  refine Pres.bind (Pres.lift _) fun avg => ?_
  cases symm with
  | conservative => exact Pres.pure _
  | average => exact Pres.pure _
  | linear | quadratic =>
    exact Pres.bind (Pres.lift _) fun _ => Pres.bind (entry_bookLogk _ _ _ _ _ (hne _ (by simp [asymNames]))) fun _ =>
      Pres.bind (entry_of_keeps (keepsTab_bookSystematic ..)) fun _ => Pres.pure _
  | none =>
    refine Pres.bind (Pres.raiseIf _ _) fun _ => Pres.bind ⟨fun s hs => Entry.of_tab (s := s) rfl hs⟩ fun _ =>
      Pres.bind (Pres.lift _) fun _ => Pres.bind (entry_bookLogk _ _ _ _ _ (hne _ (by simp [avgName]))) fun _ => Pres.pure _

theorem entry_addSystematic (x : SystIn V) (name p c : String) (kfac : V) (mirror : Bool) (symm : Symm) (toCov asDiff : Bool)
    (o : SystOpts) (hne : ¬ (c = chan ∧ p = proc ∧ Spec.booksName x symm name m)) :
    Pres (Entry chan proc m a b) (addSystematic cfg x name p c kfac mirror symm toCov asDiff o) := by
  have hk : ∀ nm, nm ∈ systNames x symm name → ¬ (c = chan ∧ some p = some proc ∧ nm = m) :=
    fun nm h e => hne ⟨e.1, Option.some.inj e.2.1, e.2.2 ▸ mem_systNames h⟩
  have hbs : ∀ nm, Pres (Entry chan proc m a b) (bookSystematic nm toCov o : M V Unit) := fun nm =>
    entry_of_keeps (keepsTab_bookSystematic ..)
  unfold addSystematic
  refine ⟨fun s hs => ?_⟩
  rw [read_bind]
  refine Pres.run (I := Entry chan proc m a b) ?_ s hs
  refine Pres.bind (Pres.lift _) fun nc => Pres.bind (Pres.lift _) fun n => Pres.bind (Pres.lift _) fun ch => ?_
  cases x with
  | pair hu hd =>
    refine Pres.bind (Pres.lift _) fun _ => Pres.bind (Pres.lift _) fun _ => Pres.bind (Pres.lift _) fun _ =>
      Pres.bind (Pres.lift _) fun _ => Pres.bind (Pres.lift _) fun _ => Pres.bind (Pres.lift _) fun _ =>
      Pres.bind (Pres.lift _) fun up => Pres.bind (Pres.lift _) fun dn => ?_
    refine ⟨fun s hs => ?_⟩
    rw [bind_def]
    have h1 := (entry_computeAsymSyst (cfg := cfg) (chan := chan) (proc := proc) (m := m) (a := a) (b := b) up (dn.map fun v => -v) name
      (some p) c symm toCov n.idx o (fun nm h => hk nm (by
        simp only [systNames, List.mem_append, List.mem_singleton]
        rcases List.mem_cons.1 h with h | h
        · exact .inr h
        · exact .inl h))).run s hs
    split
    · rename_i s' r he
      rw [he] at h1
      refine Pres.run (I := Entry chan proc m a b) ?_ s' h1
      refine Pres.bind (entry_bookLogk _ _ _ _ _ ?_) fun _ => hbs _
      rw [(computeAsymSyst_ok he).1]
      exact hk _ (by simp [systNames])
    · rename_i s' e he
      rw [he] at h1; exact h1
  | single h =>
    exact Pres.bind (Pres.raiseIf _ _) fun _ => Pres.bind (Pres.lift _) fun _ => Pres.bind (Pres.lift _) fun _ =>
      Pres.bind (Pres.lift _) fun _ => Pres.bind (Pres.lift _) fun _ =>
      Pres.bind (entry_bookLogk _ _ _ _ _ (hk _ (by simp [systNames]))) fun _ => hbs _

/-- the name under which `add_norm_systematic` books stays the given one -/
theorem normOne_name {name c : String} {toCov : Bool} {symm : Symm} {o : SystOpts} {p v : String} {u : Unc V} {s s' : State V}
    (h : normOne cfg name c toCov symm o name p u s = (s', .ok v)) : v = name := by
  unfold normOne at h
  rw [read_bind] at h
  obtain ⟨nc, _, h⟩ := lift_bind_ok h
  obtain ⟨n, _, h⟩ := lift_bind_ok h
  dsimp only at h
  split at h
  · obtain ⟨_, _, h⟩ := lift_bind_ok h
    obtain ⟨_, _, _, h⟩ := bind_ok h
    cases h; rfl
  · obtain ⟨_, _, h⟩ := lift_bind_ok h
    obtain ⟨_, _, h⟩ := lift_bind_ok h
    obtain ⟨s1, r, h1, h⟩ := bind_ok h
    obtain ⟨_, _, _, h⟩ := bind_ok h
    cases h
    obtain ⟨e, _, hn, _⟩ := computeAsymSyst_ok h1
    rw [e]
    have := hn rfl
    cases symm <;> first | rfl | (simp [asymNames] at this)
  · cases h

theorem entry_normOne (name c : String) (toCov : Bool) (symm : Symm) (o : SystOpts) (p : String) (u : Unc V)
    (hne : ¬ (c = chan ∧ p = proc ∧ name = m)) : Pres (Entry chan proc m a b) (normOne cfg name c toCov symm o name p u) := by
  have hk : ¬ (c = chan ∧ some p = some proc ∧ name = m) := fun e => hne ⟨e.1, Option.some.inj e.2.1, e.2.2⟩
  refine ⟨fun s hs => ?_⟩
  unfold normOne
  rw [read_bind]
  refine Pres.run (I := Entry chan proc m a b) ?_ s hs
  refine Pres.bind (Pres.lift _) fun nc => Pres.bind (Pres.lift _) fun n => ?_
  dsimp only
  split
  · exact Pres.bind (Pres.lift _) fun _ => Pres.bind (entry_bookLogk _ _ _ _ _ hk) fun _ => Pres.pure _
  · refine Pres.bind (Pres.lift _) fun up => Pres.bind (Pres.lift _) fun dn => ⟨fun s hs => ?_⟩
    rw [bind_def]
    have h1 := (entry_computeAsymSyst (cfg := cfg) (chan := chan) (proc := proc) (m := m) (a := a) (b := b) up (dn.map fun v => -v) name
      none c symm toCov n.idx { o with groups := none } (fun nm _ => by rintro ⟨_, ⟨⟩, _⟩)).run s hs
    split
    · rename_i s' r he
      rw [he] at h1
      refine Pres.run (I := Entry chan proc m a b) ?_ s' h1
      refine Pres.bind (entry_bookLogk _ _ _ _ _ ?_) fun _ => Pres.pure _
      obtain ⟨e, _, hn, _⟩ := computeAsymSyst_ok he
      rw [e]
      have := hn rfl
      cases symm <;> first | exact hk | (simp [asymNames] at this)
    · rename_i s' e he
      rw [he] at h1; exact h1
  · exact Pres.raise _

theorem normLoop_name {name c : String} {toCov : Bool} {symm : Symm} {o : SystOpts} (l : List (String × Unc V)) :
    ∀ {s s' : State V} {v : String}, normLoop cfg name c toCov symm o name l s = (s', .ok v) → v = name := by
  induction l with
  | nil => intro s s' v h; cases h; rfl
  | cons x l ih =>
    obtain ⟨p, u⟩ := x
    intro s s' v h
    unfold normLoop at h
    obtain ⟨s1, w, h1, h⟩ := bind_ok h
    rw [normOne_name h1] at h
    exact ih h

theorem entry_normLoop (name c : String) (toCov : Bool) (symm : Symm) (o : SystOpts) (l : List (String × Unc V))
    (hne : ∀ x ∈ l, ¬ (c = chan ∧ x.1 = proc ∧ name = m)) :
    Pres (Entry chan proc m a b) (normLoop cfg name c toCov symm o name l) := by
  induction l with
  | nil => exact Pres.pure _
  | cons x l ih =>
    obtain ⟨p, u⟩ := x
    refine ⟨fun s hs => ?_⟩
    unfold normLoop
    rw [bind_def]
    have h1 := (entry_normOne (cfg := cfg) (chan := chan) (proc := proc) (m := m) (a := a) (b := b) name c toCov symm o p u
      (hne (p, u) (by simp))).run s hs
    split
    · rename_i s' r he
      rw [he] at h1
      rw [normOne_name he]
      exact (ih fun x hx => hne x (by simp [hx])).run s' h1
    · rename_i s' e he
      rw [he] at h1; exact h1

theorem at3_upd2_empty {ν : Type} {d d' : Dict String (Dict String (Dict String ν))} {x y : String} (h : upd2 d x y [] = .ok d')
    (c p n : String) : Spec.at3 d' c p n = if c = x ∧ p = y then none else Spec.at3 d c p n := by
  unfold Spec.at3
  rw [upd2_at h]
  split <;> rfl

theorem entry_addProcess (h : HIn V) (name c : String) (sig : Bool) (vars : Option (HIn V)) :
    Pres (Entry chan proc m a b) (addProcess cfg h name c sig vars) := by
  refine ⟨fun s hs => ?_⟩
  unfold addProcess
  rw [read_bind]
  cases hc : checkHist cfg s.channels h c with
  | error e => exact hs
  | ok ch =>
    rw [lift_ok_bind]
    cases hnc : s.norm.get c with
    | error e => exact hs
    | ok nc =>
      rw [lift_ok_bind, raiseIf_bind]
      cases hh : nc.has name with
      | true => exact hs
      | false =>
        have hnone : c = chan → name = proc → a = none ∧ b = none := by
          rintro rfl rfl
          refine hs.norm.resolve_right ?_
          rintro ⟨n, hn⟩
          unfold Dict.get at hnc
          unfold Spec.at2 at hn
          cases hg : s.norm.get? c with
          | none => rw [hg] at hnc; cases hnc
          | some nc' =>
            rw [hg] at hnc hn
            cases hnc
            rw [Option.bind_some, (Dict.has_eq_false_iff _ _).1 hh] at hn
            cases hn
        simp only [Bool.false_eq_true, if_false, modify_bind, read_bind]
        have hs1 : Entry chan proc m a b (if sig = true then { s with signals := setAdd s.signals name }
          else { s with bkgs := setAdd s.bkgs name } : State V) := hs.of_tab (by split <;> rfl)
        revert hs1
        generalize (if sig = true then { s with signals := setAdd s.signals name }
          else { s with bkgs := setAdd s.bkgs name } : State V) = s1
        intro hs1
        cases ha : upd2 s1.logkavg c name [] with
        | error e => exact hs1
        | ok avg =>
          rw [lift_ok_bind]
          cases hb : upd2 s1.logkhalf c name [] with
          | error e => exact hs1
          | ok half =>
            rw [lift_ok_bind, modify_bind]
            have hs2 : Entry chan proc m a b { s1 with logkavg := avg, logkhalf := half } := by
              refine ⟨?_, ?_, hs1.3⟩
              · show Spec.at3 avg chan proc m = a
                rw [at3_upd2_empty ha]
                split
                · rename_i hx; exact (hnone hx.1.symm hx.2.symm).1.symm
                · exact hs1.1
              · show Spec.at3 half chan proc m = b
                rw [at3_upd2_empty hb]
                split
                · rename_i hx; exact (hnone hx.1.symm hx.2.symm).2.symm
                · exact hs1.2
            cases procNorm cfg h ch.flow with
            | error e => exact hs2
            | ok n =>
              rw [lift_ok_bind]
              cases procSumw2 h vars ch.flow with
              | error e => exact hs2
              | ok w =>
                rw [lift_ok_bind, read_bind]
                cases hn : upd2 ({ s1 with logkavg := avg, logkhalf := half } : State V).norm c name n with
                | error e => exact hs2
                | ok d =>
                  rw [lift_ok_bind]
                  cases upd2 ({ s1 with logkavg := avg, logkhalf := half } : State V).sumw2 c name w with
                  | error e => exact hs2
                  | ok d2 =>
                    refine ⟨hs2.1, hs2.2, hs2.3.imp id ?_⟩
                    rintro ⟨n', hn'⟩
                    show ∃ n, Spec.at2 d chan proc = some n
                    rw [upd2_at hn]
                    split
                    · exact ⟨_, rfl⟩
                    · exact ⟨n', hn'⟩

/-- a call that does not concern the cell, and does not register the channel again -/
theorem entry_step (op : Op V) (s : State V) (hs : Entry chan proc m a b s) (hne : ¬ Spec.touches chan proc m op)
    (hch : Spec.addsChannel s chan op → a = none ∧ b = none) : Entry chan proc m a b (step cfg op s).1 := by
  have key : ∀ {x : M V Unit}, Keeps tab x → Entry chan proc m a b (x s).1 := fun hx => hs.of_tab (hx.run s)
  cases op with
  | dataCov c => exact key ⟨fun _ => rfl⟩
  | write it => exact key (Keeps.bind (keeps_write _ (fun _ _ => rfl) ..) fun _ => Keeps.pure _)
  | pseudo h name c => exact key (keeps_addPseudo _ (fun _ _ _ => rfl) ..)
  | data h c vars => exact key (keeps_addData _ (fun _ _ _ => rfl) ..)
  | process h name c sig vars => exact (entry_addProcess ..).run s hs
  | syst x name p c k mi sy t d o => exact (entry_addSystematic x name p c k mi sy t d o hne).run s hs
  | normSyst name procs c u t sy o =>
    simp only [step, addNormSystematic]
    refine Pres.run (I := Entry chan proc m a b) ?_ s hs
    exact Pres.bind (Pres.raiseIf _ _) fun _ => Pres.bind (entry_normLoop _ _ _ _ _ _ fun x hx e =>
      hne ⟨e.1, e.2.1 ▸ (List.of_mem_zip hx).1, e.2.2.symm⟩) fun _ => entry_of_keeps (keepsTab_bookSystematic ..)
  | channel axes name ma f =>
    simp only [step]
    unfold addChannel
    rw [raiseIf_bind]
    split
    · exact hs
    rw [read_bind]
    have hch' : name.getD s!"ch{s.channels.length}" = chan → a = none ∧ b = none := fun e => hch e
    revert hch'
    generalize name.getD s!"ch{s.channels.length}" = nm
    intro hch'
    refine ⟨?_, ?_, ?_⟩
    · show Spec.at3 (s.logkavg.set nm []) chan proc m = a
      rw [at3_of_set_nil]
      split
      · rename_i hx; exact (hch' hx).1.symm
      · exact hs.1
    · show Spec.at3 (s.logkhalf.set nm []) chan proc m = b
      rw [at3_of_set_nil]
      split
      · rename_i hx; exact (hch' hx).2.symm
      · exact hs.2
    · by_cases hx : nm = chan
      · exact .inl (hch' hx)
      · refine hs.3.imp id ?_
        rintro ⟨n, hn⟩
        refine ⟨n, ?_⟩
        show Spec.at2 (s.norm.set nm []) chan proc = some n
        rw [at2_of_set, if_neg hx]; exact hn

/-- nothing is stored for a cell that no call concerned -/
theorem entry_none (ops : List (Op V)) : ∀ (s : State V), Entry chan proc m none none s → (∀ op ∈ ops, ¬ Spec.touches chan proc m op) →
    Entry chan proc m none none (runOps cfg s ops) := by
  induction ops with
  | nil => exact fun s hs _ => hs
  | cons op ops ih =>
    exact fun s hs h => ih _ (entry_step op s hs (h op (by simp)) fun _ => ⟨rfl, rfl⟩) fun o ho => h o (by simp [ho])

/-- a stored variation stays through calls that do not concern it -/
theorem entry_run (ops : List (Op V)) : ∀ (s : State V), Entry chan proc m a b s → (∀ op ∈ ops, ¬ Spec.touches chan proc m op) →
    Spec.neverReadded cfg chan s ops → Entry chan proc m a b (runOps cfg s ops) := by
  induction ops with
  | nil => exact fun s hs _ _ => hs
  | cons op ops ih =>
    exact fun s hs h hn => ih _ (entry_step op s hs (h op (by simp)) fun hc => absurd hc hn.1) (fun o ho => h o (by simp [ho])) hn.2

end

/-! ### Channels stay -/

theorem channel_step {cfg : Cfg V} (op : Op V) (s : State V) (hl : LayInv s)
    (hf : ∀ chan, Spec.addsChannel s chan op → s.channels.has chan = false) {chan : String} {c : Chan}
    (hc : s.channels.get? chan = some c) : (step cfg op s).1.channels.get? chan = some c := by
  have key : ∀ {x : M V Unit}, Keeps State.channels x → (x s).1.channels.get? chan = some c := fun hx => by rw [hx.run s]; exact hc
  have kc : ∀ {x : M V Unit}, Keeps core x → Keeps State.channels x := fun hx =>
    keeps_of_core hx _ fun _ _ e => congrArg Core.channels e
  cases op with
  | dataCov c => exact key ⟨fun _ => rfl⟩
  | write it => exact key (Keeps.bind (keeps_write _ (fun _ _ => rfl) ..) fun _ => Keeps.pure _)
  | pseudo h name c => exact key (keeps_addPseudo _ (fun _ _ _ => rfl) ..)
  | data h c vars => exact key (keeps_addData _ (fun _ _ _ => rfl) ..)
  | process h name c sig vars => exact key (keeps_addProcess _ (fun _ _ _ _ _ _ _ => rfl) ..)
  | syst x name p c k mi sy t d o => exact key (kc (keeps_addSystematic ..))
  | normSyst name procs c u t sy o => exact key (kc (keeps_addNormSystematic ..))
  | channel axes name ma f =>
    have hff := hf _ rfl
    simp only [step]
    unfold addChannel
    rw [raiseIf_bind]
    split
    · exact hc
    rw [read_bind]
    revert hff
    generalize name.getD s!"ch{s.channels.length}" = nm
    intro hff
    show (insertChannel s.channels nm ⟨axes, ma, f⟩).get? chan = some c
    rw [insertChannel_get hff hl.nodup, if_neg]
    · exact hc
    · rintro rfl
      rw [(Dict.has_eq_false_iff _ _).1 hff] at hc; cases hc

/-- a registered channel stays as it is, and is not registered again, when names are used once -/
theorem channel_run {cfg : Cfg V} (ops : List (Op V)) : ∀ (s : State V), LayInv s → Spec.freshNames cfg s ops → ∀ {chan c},
    s.channels.get? chan = some c → (runOps cfg s ops).channels.get? chan = some c ∧ Spec.neverReadded cfg chan s ops := by
  induction ops with
  | nil => exact fun s _ _ _ _ h => ⟨h, trivial⟩
  | cons op ops ih =>
    intro s hl hf chan c hc
    obtain ⟨h1, h2⟩ := ih _ (layInv_step cfg op s hl hf.1) hf.2 (channel_step (cfg := cfg) op s hl hf.1 hc)
    refine ⟨h1, fun ha => ?_, h2⟩
    have := hf.1 chan ha
    rw [(Dict.has_eq_false_iff _ _).1 this] at hc; cases hc

end Verif.Writer
