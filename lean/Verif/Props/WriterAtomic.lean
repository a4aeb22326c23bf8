import Verif.Props.WriterCov
import Verif.Props.WriterProcs
import Verif.Props.WriterTemplates

/-!
C97: calls of the writer that raise. Which of them leave the writer as it was, and what the others leave behind.
-/

namespace Verif.Writer

open Verif.Logk M

set_option linter.unusedSectionVars false

variable {V : Type} [Field V] [LinearOrder V]

/-! ### Specification -/

/-- a call that raises leaves the writer as it was -/
def Spec.atomic (m : M V Unit) (s : State V) : Prop := ∀ e, (m s).2 = .error e → (m s).1 = s

/-- where a template is stored there is a place for its variations -/
def Spec.ready (s : State V) : Prop := ∀ c p n, Spec.at2 s.norm c p = some n →
  (∃ a, Spec.at2 s.logkavg c p = some a) ∧ (∃ h, Spec.at2 s.logkhalf c p = some h)

/-- every stored set of pseudo-data is listed -/
def Spec.listed (s : State V) : Prop := ∀ c n l, Spec.at2 s.pseudo c n = some l → n ∈ s.pseudoNames

/-! ### Helper lemmas -/

theorem dict_set_set {κ ν : Type} [DecidableEq κ] (d : Dict κ ν) (k : κ) (v w : ν) :
    (d.set k v).set k w = d.set k w := by
  induction d with
  | nil => simp [Dict.set]
  | cons x d ih =>
    obtain ⟨k', v'⟩ := x
    by_cases h : k' = k
    · subst h; simp [Dict.set]
    · simp only [Dict.set, h, if_false, ih]

theorem setAdd_of_mem {α : Type} [DecidableEq α] {l : List α} {x : α} (h : x ∈ l) : setAdd l x = l := by
  unfold setAdd; rw [if_pos (by simpa using h)]

theorem setAdd_setAdd {α : Type} [DecidableEq α] (l : List α) (x : α) : setAdd (setAdd l x) x = setAdd l x :=
  setAdd_of_mem ((mem_setAdd l x x).2 (.inr rfl))

theorem dict_set_get {κ ν : Type} [DecidableEq κ] {d : Dict κ ν} {k : κ} {v : ν} (h : d.get? k = some v) :
    d.set k v = d := by
  induction d with
  | nil => cases h
  | cons x d ih =>
    obtain ⟨k', v'⟩ := x
    by_cases hk : k' = k
    · subst hk
      simp [Dict.get?] at h
      subst h
      simp [Dict.set]
    · simp [Dict.get?, hk] at h
      simp only [Dict.set, hk, if_false]
      rw [ih (by simpa [Dict.get?] using h)]

/-! ### Reachable states -/

theorem upd2_has {ν : Type} {d d' : Dict String (Dict String ν)} {a b : String} {v : ν} (h : upd2 d a b v = .ok d')
    {c p : String} (hc : ∃ x, Spec.at2 d c p = some x) : ∃ x, Spec.at2 d' c p = some x := by
  rw [upd2_at h]
  split
  · exact ⟨_, rfl⟩
  · exact hc

theorem upd3_has {ν : Type} {d d' : Dict String (Dict String (Dict String ν))} {a b m : String} {v : ν}
    (h : upd3 d a b m v = .ok d') {c p : String} (hc : ∃ x, Spec.at2 d c p = some x) :
    ∃ x, Spec.at2 d' c p = some x := by
  unfold upd3 at h
  split at h
  · rename_i i hi
    cases hu : upd2 i b m v with
    | error e => rw [hu] at h; cases h
    | ok i' =>
      rw [hu] at h
      cases h
      rw [at2_of_set]
      split
      · rename_i hac
        subst hac
        obtain ⟨x, hx⟩ := hc
        unfold Spec.at2 at hx
        rw [hi] at hx
        unfold upd2 at hu
        split at hu
        · cases hu
          rw [Dict.get?_set]
          split
          · exact ⟨_, rfl⟩
          · exact ⟨x, hx⟩
        · cases hu
      · exact hc
  · cases h

theorem ready_of_tab {s s' : State V} (h : tab s' = tab s) (hs : Spec.ready s) : Spec.ready s' := by
  simp only [tab, Prod.mk.injEq] at h
  obtain ⟨h1, h2, h3⟩ := h
  unfold Spec.ready
  rw [h1, h2, h3]; exact hs

theorem ready_bookSystematic (name : String) (toCov : Bool) (o : SystOpts) :
    Pres Spec.ready (bookSystematic name toCov o : M V Unit) :=
  Pres.of_keeps (keepsTab_bookSystematic ..) fun _ _ h hs => ready_of_tab h hs

theorem ready_bookLogk (cfg : Cfg V) (half : Bool) (lk : LogkIn V) (chan : String) (proc : Option String)
    (name : String) : Pres Spec.ready (bookLogk cfg half lk chan proc name) := by
  refine ⟨fun s hs => ?_⟩
  unfold bookLogk
  rw [read_bind]
  cases proc with
  | none => exact hs
  | some p =>
    rw [lift_ok_bind]
    cases hnc : s.norm.get chan with
    | error e => exact hs
    | ok nc =>
      rw [lift_ok_bind]
      cases hn : nc.get p with
      | error e => exact hs
      | ok n =>
        rw [lift_ok_bind]
        cases he : bookedLogk cfg n lk with
        | error e => exact hs
        | ok e =>
          rw [lift_ok_bind]
          cases half with
          | true =>
            simp only [if_true]
            cases hd : upd3 s.logkhalf chan p name e with
            | error _ => exact hs
            | ok d => exact fun c q n' h => ⟨(hs c q n' h).1, upd3_has hd (hs c q n' h).2⟩
          | false =>
            simp only [Bool.false_eq_true, if_false]
            cases hd : upd3 s.logkavg chan p name e with
            | error _ => exact hs
            | ok d => exact fun c q n' h => ⟨upd3_has hd (hs c q n' h).1, (hs c q n' h).2⟩

theorem ready_computeAsymSyst (cfg : Cfg V) (up down : List V) (name : String) (proc : Option String) (chan : String)
    (symm : Symm) (toCov : Bool) (idx : Option (List Nat)) (o : SystOpts) :
    Pres Spec.ready (computeAsymSyst cfg up down name proc chan symm toCov idx o) := by
  unfold computeAsymSyst
  refine Pres.bind (Pres.lift _) fun avg => ?_
  cases symm with
  | conservative => exact Pres.pure _
  | average => exact Pres.pure _
  | linear | quadratic =>
    exact Pres.bind (Pres.lift _) fun _ => Pres.bind (ready_bookLogk ..) fun _ =>
      Pres.bind (ready_bookSystematic ..) fun _ => Pres.pure _
  | none =>
    refine Pres.bind (Pres.raiseIf _ _) fun _ => Pres.bind ⟨fun s hs => ?_⟩ fun _ => Pres.bind (Pres.lift _) fun _ =>
      Pres.bind (ready_bookLogk ..) fun _ => Pres.pure _
    exact ready_of_tab (s := s) rfl hs

theorem ready_addSystematic (cfg : Cfg V) (x : SystIn V) (name proc chan : String) (kfac : V) (mirror : Bool)
    (symm : Symm) (toCov asDiff : Bool) (o : SystOpts) :
    Pres Spec.ready (addSystematic cfg x name proc chan kfac mirror symm toCov asDiff o) := by
  unfold addSystematic
  refine Pres.bind ⟨fun s hs => hs⟩ fun s => Pres.bind (Pres.lift _) fun _ => Pres.bind (Pres.lift _) fun _ =>
    Pres.bind (Pres.lift _) fun _ => ?_
  cases x with
  | pair hu hd =>
    exact Pres.bind (Pres.lift _) fun _ => Pres.bind (Pres.lift _) fun _ => Pres.bind (Pres.lift _) fun _ =>
      Pres.bind (Pres.lift _) fun _ => Pres.bind (Pres.lift _) fun _ => Pres.bind (Pres.lift _) fun _ =>
      Pres.bind (Pres.lift _) fun _ => Pres.bind (Pres.lift _) fun _ =>
      Pres.bind (ready_computeAsymSyst ..) fun _ => Pres.bind (ready_bookLogk ..) fun _ => ready_bookSystematic ..
  | single h =>
    exact Pres.bind (Pres.raiseIf _ _) fun _ => Pres.bind (Pres.lift _) fun _ => Pres.bind (Pres.lift _) fun _ =>
      Pres.bind (Pres.lift _) fun _ => Pres.bind (Pres.lift _) fun _ =>
      Pres.bind (ready_bookLogk ..) fun _ => ready_bookSystematic ..

theorem ready_normOne (cfg : Cfg V) (name chan : String) (toCov : Bool) (symm : Symm) (o : SystOpts)
    (varName p : String) (u : Unc V) : Pres Spec.ready (normOne cfg name chan toCov symm o varName p u) := by
  unfold normOne
  refine Pres.bind ⟨fun s hs => hs⟩ fun s => Pres.bind (Pres.lift _) fun _ => Pres.bind (Pres.lift _) fun _ => ?_
  dsimp only
  split
  · exact Pres.bind (Pres.lift _) fun _ => Pres.bind (ready_bookLogk ..) fun _ => Pres.pure _
  · exact Pres.bind (Pres.lift _) fun _ => Pres.bind (Pres.lift _) fun _ =>
      Pres.bind (ready_computeAsymSyst ..) fun _ => Pres.bind (ready_bookLogk ..) fun _ => Pres.pure _
  · exact Pres.raise _

theorem ready_normLoop (cfg : Cfg V) (name chan : String) (toCov : Bool) (symm : Symm) (o : SystOpts)
    (l : List (String × Unc V)) : ∀ varName, Pres Spec.ready (normLoop cfg name chan toCov symm o varName l) := by
  induction l with
  | nil => exact fun v => Pres.pure v
  | cons x l ih =>
    obtain ⟨p, u⟩ := x
    exact fun v => Pres.bind (ready_normOne ..) fun v' => ih v'

theorem ready_addChannel (axes : List Axis) (name : Option String) (masked flow : Bool) :
    Pres (Spec.ready (V := V)) (addChannel axes name masked flow) := by
  refine ⟨fun s hs => ?_⟩
  unfold addChannel
  rw [raiseIf_bind]
  split
  · exact hs
  · rw [read_bind]
    intro c p n h
    have h' : Spec.at2 (s.norm.set (name.getD s!"ch{s.channels.length}") []) c p = some n := h
    rw [at2_of_set] at h'
    split at h'
    · cases h'
    · rename_i hne
      obtain ⟨⟨a, ha⟩, b, hb⟩ := hs c p n h'
      refine ⟨⟨a, ?_⟩, b, ?_⟩
      · show Spec.at2 (s.logkavg.set (name.getD s!"ch{s.channels.length}") []) c p = some a
        rw [at2_of_set, if_neg hne]; exact ha
      · show Spec.at2 (s.logkhalf.set (name.getD s!"ch{s.channels.length}") []) c p = some b
        rw [at2_of_set, if_neg hne]; exact hb

/-- the writer after the first half of `add_process`, where the name has been registered -/
def named (sig : Bool) (name : String) (s : State V) : State V :=
  if sig then { s with signals := setAdd s.signals name } else { s with bkgs := setAdd s.bkgs name }

/-- outcome of `add_process` as a state -/
theorem addProcess_out (cfg : Cfg V) (h : HIn V) (name chan : String) (sig : Bool) (vars : Option (HIn V))
    (s : State V) :
    ((∃ e, addProcess cfg h name chan sig vars s = (s, .error e)) ∧
      ((∃ e, checkHist cfg s.channels h chan = .error e) ∨ s.norm.get? chan = none ∨
        ∃ nc, s.norm.get? chan = some nc ∧ nc.has name = true)) ∨
    (∃ c nc, checkHist cfg s.channels h chan = .ok c ∧ s.norm.get? chan = some nc ∧ nc.has name = false ∧
      addProcess cfg h name chan sig vars s =
        match upd2 s.logkavg chan name [] with
        | .error e => (named sig name s, .error e)
        | .ok avg => match upd2 s.logkhalf chan name [] with
          | .error e => (named sig name s, .error e)
          | .ok half => match procNorm cfg h c.flow with
            | .error e => ({ named sig name s with logkavg := avg, logkhalf := half }, .error e)
            | .ok n => match procSumw2 h vars c.flow with
              | .error e => ({ named sig name s with logkavg := avg, logkhalf := half }, .error e)
              | .ok w => match upd2 s.sumw2 chan name w with
                | .error e => ({ named sig name s with logkavg := avg, logkhalf := half }, .error e)
                | .ok w2 => ({ named sig name s with
                    logkavg := avg, logkhalf := half, norm := s.norm.set chan (nc.set name n), sumw2 := w2 }, .ok ())) := by
  unfold addProcess
  rw [read_bind]
  cases hc : checkHist cfg s.channels h chan with
  | error e => exact .inl ⟨⟨e, rfl⟩, .inl ⟨e, rfl⟩⟩
  | ok c =>
    rw [lift_ok_bind]
    unfold Dict.get
    cases hn : s.norm.get? chan with
    | none => exact .inl ⟨⟨_, rfl⟩, .inr (.inl rfl)⟩
    | some nc =>
      dsimp only
      rw [lift_ok_bind, raiseIf_bind]
      cases hh : nc.has name with
      | true => exact .inl ⟨⟨_, rfl⟩, .inr (.inr ⟨nc, rfl, hh⟩)⟩
      | false =>
        refine .inr ⟨c, nc, rfl, rfl, hh, ?_⟩
        simp only [Bool.false_eq_true, if_false, modify_bind, read_bind]
        have e0 : (if sig = true then { s with signals := setAdd s.signals name }
          else { s with bkgs := setAdd s.bkgs name } : State V) = named sig name s := rfl
        rw [e0]
        have e1 : (named sig name s).norm = s.norm := by unfold named; split <;> rfl
        have e2 : (named sig name s).sumw2 = s.sumw2 := by unfold named; split <;> rfl
        have e3 : (named sig name s).logkavg = s.logkavg := by unfold named; split <;> rfl
        have e4 : (named sig name s).logkhalf = s.logkhalf := by unfold named; split <;> rfl
        rw [e3, e4]
        cases ha : upd2 s.logkavg chan name [] with
        | error e => rfl
        | ok avg =>
          rw [lift_ok_bind]
          cases hb : upd2 s.logkhalf chan name [] with
          | error e => rfl
          | ok half =>
            rw [lift_ok_bind, modify_bind]
            cases hp : procNorm cfg h c.flow with
            | error e => rfl
            | ok n =>
              rw [lift_ok_bind]
              cases hw : procSumw2 h vars c.flow with
              | error e => rfl
              | ok w =>
                rw [lift_ok_bind, read_bind]
                simp only [upd2, e1, e2, hn, lift_ok_bind]
                cases hww : s.sumw2.get? chan with
                | none => rfl
                | some wc => rfl

theorem at2_set_new {ν : Type} {d : Dict String (Dict String ν)} {a b c p : String} {i : Dict String ν} {v w : ν}
    (hi : d.get? a = some i) (h : Spec.at2 (d.set a (i.set b v)) c p = some w) :
    (c = a ∧ p = b) ∨ Spec.at2 d c p = some w := by
  rw [at2_of_set] at h
  split at h
  · rename_i hac
    subst hac
    rw [Dict.get?_set] at h
    split at h
    · rename_i hb; exact .inl ⟨rfl, hb.symm⟩
    · right; unfold Spec.at2; rw [hi]; exact h
  · exact .inr h

theorem ready_addProcess (cfg : Cfg V) (h : HIn V) (name chan : String) (sig : Bool) (vars : Option (HIn V)) :
    Pres Spec.ready (addProcess cfg h name chan sig vars) := by
  refine ⟨fun s hs => ?_⟩
  have e0 : tab (named sig name s) = tab s := by unfold named; split <;> rfl
  have hs' : Spec.ready (named sig name s) := ready_of_tab e0 hs
  simp only [tab, Prod.mk.injEq] at e0
  rcases addProcess_out cfg h name chan sig vars s with ⟨⟨e, he⟩, _⟩ | ⟨c, nc, hc, hn, hh, he⟩
  · rw [he]; exact hs
  · rw [he]
    cases ha : upd2 s.logkavg chan name [] with
    | error e => exact hs'
    | ok avg =>
      dsimp only
      cases hb : upd2 s.logkhalf chan name [] with
      | error e => exact hs'
      | ok half =>
        dsimp only
        have key : Spec.ready ({ named sig name s with logkavg := avg, logkhalf := half } : State V) := by
          intro c' p' n' h'
          have h'' : Spec.at2 s.norm c' p' = some n' := by rw [← e0.1]; exact h'
          exact ⟨upd2_has ha (hs c' p' n' h'').1, upd2_has hb (hs c' p' n' h'').2⟩
        cases hp : procNorm cfg h c.flow with
        | error e => exact key
        | ok n =>
          dsimp only
          cases hw : procSumw2 h vars c.flow with
          | error e => exact key
          | ok w =>
            dsimp only
            cases hw2 : upd2 s.sumw2 chan name w with
            | error e => exact key
            | ok w2 =>
              intro c' p' n' h'
              rcases at2_set_new hn h' with ⟨rfl, rfl⟩ | h''
              · refine ⟨⟨[], ?_⟩, [], ?_⟩
                · show Spec.at2 avg c' p' = _
                  rw [upd2_at ha, if_pos ⟨rfl, rfl⟩]
                · show Spec.at2 half c' p' = _
                  rw [upd2_at hb, if_pos ⟨rfl, rfl⟩]
              · exact ⟨upd2_has ha (hs c' p' n' h'').1, upd2_has hb (hs c' p' n' h'').2⟩

theorem ready_run (cfg : Cfg V) (ops : List (Op V)) : Spec.ready (run cfg ops) := by
  refine runOps_induction cfg (fun op s hs => ?_) ops _ (fun c p n h => by cases h)
  have key : ∀ {m : M V Unit}, Keeps tab m → Spec.ready (m s).1 := fun hm => ready_of_tab (hm.run s) hs
  cases op with
  | channel axes name m f => exact (ready_addChannel ..).run s hs
  | data h c vars => exact key (keeps_addData _ (fun _ _ _ => rfl) ..)
  | dataCov c => exact key ⟨fun _ => rfl⟩
  | pseudo h name c => exact key (keeps_addPseudo _ (fun _ _ _ => rfl) ..)
  | process h name c sig vars => exact (ready_addProcess ..).run s hs
  | syst x name proc c k m sy t d o => exact (ready_addSystematic ..).run s hs
  | normSyst name procs c u t sy o =>
    exact (Pres.bind (Pres.raiseIf _ _) fun _ => Pres.bind (ready_normLoop ..) fun _ =>
      ready_bookSystematic ..).run s hs
  | write it => exact key (Keeps.bind (keeps_write _ (fun _ _ => rfl) ..) fun _ => Keeps.pure _)

/-- outcome of `add_pseudodata` -/
theorem addPseudo_out (cfg : Cfg V) (h : HIn V) (name : Option String) (chan : String) (s : State V) :
    (∃ e, addPseudo cfg h name chan s = (s, .error e)) ∨
    ∃ nm pc, nm = name.getD s!"pseudodata_{s.pseudoNames.length}" ∧ pc = ((s.pseudo.get? chan).getD []) ∧
      ((pc.has nm = true ∧ addPseudo cfg h name chan s =
          ({ s with pseudoNames := setAdd s.pseudoNames nm }, .error .runtime)) ∨
       (pc.has nm = false ∧ addPseudo cfg h name chan s =
          ({ s with pseudoNames := setAdd s.pseudoNames nm,
                    pseudo := s.pseudo.set chan (pc.set nm (h.flatVals false)) }, .ok ()))) := by
  unfold addPseudo
  rw [read_bind]
  cases hc : checkHist cfg s.channels h chan with
  | error e => exact .inl ⟨e, rfl⟩
  | ok c =>
    refine .inr ⟨_, _, rfl, rfl, ?_⟩
    rw [lift_ok_bind, modify_bind, modify_bind, read_bind]
    cases hp : s.pseudo.get? chan with
    | some pc =>
      have hhas : s.pseudo.has chan = true := (Dict.has_iff _ _).2 ⟨pc, hp⟩
      simp only [hhas, if_true, Dict.get, hp, Option.getD_some, lift_ok_bind, raiseIf_bind]
      cases hn : Dict.has pc (name.getD s!"pseudodata_{s.pseudoNames.length}") with
      | true => exact .inl ⟨rfl, rfl⟩
      | false =>
        refine .inr ⟨rfl, ?_⟩
        simp only [Bool.false_eq_true, if_false, upd2, hp, lift_ok_bind]
        rfl
    | none =>
      have hhas : s.pseudo.has chan = false := (Dict.has_eq_false_iff _ _).2 hp
      simp only [hhas, Bool.false_eq_true, if_false, Dict.get, Option.getD_none, Dict.get?_set_self, lift_ok_bind,
        raiseIf_bind]
      refine .inr ⟨rfl, ?_⟩
      simp only [show Dict.has ([] : Dict String (List (FVal V))) (name.getD s!"pseudodata_{s.pseudoNames.length}") = false
        from rfl, Bool.false_eq_true, if_false, upd2, Dict.get?_set_self, lift_ok_bind, dict_set_set]
      rfl

theorem listed_run (cfg : Cfg V) (ops : List (Op V)) : Spec.listed (run cfg ops) := by
  refine runOps_induction cfg (fun op s hs => ?_) ops _ (fun c n l h => by cases h)
  have key : ∀ {m : M V Unit}, Keeps (fun s : State V => (s.pseudo, s.pseudoNames)) m → Spec.listed (m s).1 := fun hm => by
    have := hm.run s
    simp only [Prod.mk.injEq] at this
    unfold Spec.listed
    rw [this.1, this.2]; exact hs
  have kc : ∀ {m : M V Unit}, Keeps core m → Keeps (fun s : State V => (s.pseudo, s.pseudoNames)) m := fun hm =>
    keeps_of_core hm _ fun s t e => by
      have := congrArg (fun c : Core V => (c.pseudo, c.pseudoNames)) e
      exact this
  cases op with
  | channel axes name m f => exact key (keeps_addChannel _ (fun _ _ _ _ _ _ _ => rfl) ..)
  | data h c vars => exact key (keeps_addData _ (fun _ _ _ => rfl) ..)
  | dataCov c => exact key ⟨fun _ => rfl⟩
  | process h name c sig vars => exact key (keeps_addProcess _ (fun _ _ _ _ _ _ _ => rfl) ..)
  | syst x name proc c k m sy t d o => exact key (kc (keeps_addSystematic ..))
  | normSyst name procs c u t sy o => exact key (kc (keeps_addNormSystematic ..))
  | write it => exact key (Keeps.bind (keeps_write _ (fun _ _ => rfl) ..) fun _ => Keeps.pure _)
  | pseudo h name c =>
    simp only [step]
    rcases addPseudo_out cfg h name c s with ⟨e, he⟩ | ⟨nm, pc, hnm, hpc, ⟨_, he⟩ | ⟨_, he⟩⟩
    · rw [he]; exact hs
    · rw [he]
      exact fun c' n' l' h' => (mem_setAdd _ _ _).2 (.inl (hs c' n' l' h'))
    · rw [he]
      intro c' n' l' h'
      refine (mem_setAdd _ _ _).2 ?_
      have h'' : Spec.at2 (s.pseudo.set c (pc.set nm (h.flatVals false))) c' n' = some l' := h'
      rw [at2_of_set] at h''
      split at h''
      · rename_i hcc
        subst hcc
        rw [Dict.get?_set] at h''
        split at h''
        · rename_i e; exact .inr e.symm
        · left
          cases hp : s.pseudo.get? c with
          | none => rw [hpc, hp] at h''; cases h''
          | some pc' =>
            rw [hpc, hp] at h''
            exact hs c n' l' (by unfold Spec.at2; rw [hp]; exact h'')
      · exact .inl (hs c' n' l' h'')

/-! ### Booking either succeeds or changes nothing -/

theorem zipB_ok_iff {α β γ : Type} (f : α → β → γ) (a : List α) (b : List β) :
    (∃ r, zipB f a b = .ok r) ↔ a.length = b.length ∨ a.length = 1 ∨ b.length = 1 := by
  unfold zipB
  split
  · rename_i h; exact ⟨fun _ => .inl h, fun _ => ⟨_, rfl⟩⟩
  · rename_i h
    split
    · exact ⟨fun _ => .inr (.inl rfl), fun _ => ⟨_, rfl⟩⟩
    · exact ⟨fun _ => .inr (.inr rfl), fun _ => ⟨_, rfl⟩⟩
    · rename_i h1 h2
      constructor
      · rintro ⟨_, hr⟩; cases hr
      · rintro (h' | h' | h')
        · exact (h h').elim
        · obtain ⟨x, hx⟩ := List.length_eq_one_iff.1 h'
          exact (h1 x hx).elim
        · obtain ⟨x, hx⟩ := List.length_eq_one_iff.1 h'
          exact (h2 x hx).elim

theorem zipB_length {α β γ : Type} {f : α → β → γ} {a : List α} {b : List β} {r : List γ} (h : zipB f a b = .ok r) :
    r.length = if a.length = b.length then a.length else if a.length = 1 then b.length else a.length := by
  unfold zipB at h
  split at h
  · rename_i hl
    cases h
    rw [if_pos hl, List.length_zipWith, hl, Nat.min_self]
  · rename_i hl
    rw [if_neg hl]
    split at h
    · cases h; rw [List.length_map]; rfl
    · rename_i h1
      cases h
      rw [List.length_map]
      split
      · rename_i h'
        exact (hl (h'.trans rfl)).elim
      · rfl
    · cases h

theorem bookedLogk_ok_iff (cfg : Cfg V) (n : Norm V) (l : List V) :
    (∃ e, bookedLogk cfg n (wrap n.idx l) = .ok e) ↔
      (n.idx.isSome = true ∨ n.vals.length = l.length ∨ n.vals.length = 1 ∨ l.length = 1) := by
  cases n with
  | csr k es => exact ⟨fun _ => .inl rfl, fun _ => ⟨_, rfl⟩⟩
  | dense v =>
    have h0 : bookedLogk cfg (.dense v) (wrap (Norm.idx (.dense v)) l) =
        (zipB maskNorm v l).bind fun m => .ok (if cfg.sparse then .sparse (nonzeros m) else .dense m) := rfl
    rw [h0]
    have := zipB_ok_iff maskNorm v l
    constructor
    · rintro ⟨e, he⟩
      cases hz : zipB maskNorm v l with
      | error e' => rw [hz] at he; cases he
      | ok m => exact .inr (this.1 ⟨m, hz⟩)
    · rintro (h | h)
      · cases h
      · obtain ⟨m, hm⟩ := this.2 h
        exact ⟨_, by rw [hm]; rfl⟩

/-- `book_logk` for a registered template: succeeds exactly if the lengths fit, and changes nothing if it raises -/
theorem bookLogk_out (cfg : Cfg V) (half : Bool) (lk : LogkIn V) (chan p name : String) (s : State V)
    (hs : Spec.ready s) {n : Norm V} (hn : Spec.at2 s.norm chan p = some n) :
    (∃ e, bookedLogk cfg n lk = .error e ∧ bookLogk cfg half lk chan (some p) name s = (s, .error e)) ∨
    (∃ e s', bookedLogk cfg n lk = .ok e ∧ bookLogk cfg half lk chan (some p) name s = (s', .ok ()) ∧
      s'.norm = s.norm ∧ Spec.ready s') := by
  have hr := (ready_bookLogk cfg half lk chan (some p) name).run s hs
  have hk := congrArg Core.norm ((keeps_bookLogk cfg half lk chan (some p) name).run s)
  have hat : ∃ nc, s.norm.get? chan = some nc ∧ nc.get? p = some n := by
    unfold Spec.at2 at hn
    cases hc : s.norm.get? chan with
    | none => rw [hc] at hn; cases hn
    | some nc => rw [hc] at hn; exact ⟨nc, rfl, hn⟩
  obtain ⟨nc, h1, h2⟩ := hat
  have hup : ∀ (d : Dict String (Dict String (Dict String (LogkE V)))) (e : LogkE V),
      (∃ a, Spec.at2 d chan p = some a) → ∃ d', upd3 d chan p name e = .ok d' := by
    rintro d e ⟨a, ha⟩
    unfold Spec.at2 at ha
    cases hc : d.get? chan with
    | none => rw [hc] at ha; cases ha
    | some i =>
      rw [hc] at ha
      have ha' : i.get? p = some a := ha
      unfold upd3 upd2
      rw [hc]
      dsimp only
      rw [ha']
      exact ⟨_, rfl⟩
  revert hr hk
  unfold bookLogk
  rw [read_bind, lift_ok_bind]
  simp only [Dict.get, h1, h2, lift_ok_bind]
  cases he : bookedLogk cfg n lk with
  | error e => exact fun _ _ => .inl ⟨e, rfl, rfl⟩
  | ok e =>
    rw [lift_ok_bind]
    cases half with
    | true =>
      simp only [if_true]
      obtain ⟨d, hd⟩ := hup s.logkhalf e (hs _ _ _ hn).2
      rw [hd]
      exact fun hr hk => .inr ⟨e, _, rfl, rfl, hk, hr⟩
    | false =>
      simp only [Bool.false_eq_true, if_false]
      obtain ⟨d, hd⟩ := hup s.logkavg e (hs _ _ _ hn).1
      rw [hd]
      exact fun hr hk => .inr ⟨e, _, rfl, rfl, hk, hr⟩

theorem bookSystematic_out (name : String) (toCov : Bool) (o : SystOpts) (ho : (toCov && o.noi) = false) (s : State V) :
    ∃ s', bookSystematic name toCov o s = (s', .ok ()) ∧ tab s' = tab s := by
  have hk := (keepsTab_bookSystematic (V := V) name toCov o).run s
  revert hk
  unfold bookSystematic
  rw [raiseIf_bind, ho]
  exact fun hk => ⟨_, rfl, hk⟩

/-! ### C97: calls that change nothing when they raise -/

/-- C97, channels: an `add_channel` that raises leaves the writer as it was, in every state. -/
theorem c97_channel (axes : List Axis) (name : Option String) (masked flow : Bool) (s : State V) :
    Spec.atomic (addChannel axes name masked flow) s := by
  intro e
  unfold addChannel
  rw [raiseIf_bind]
  split
  · exact fun _ => rfl
  · intro h; cases h

/-- C97, pseudo-data: after any history of calls, an `add_pseudodata` that raises leaves the writer as it was. -/
theorem c97_pseudo (cfg : Cfg V) (ops : List (Op V)) (h : HIn V) (name : Option String) (chan : String) :
    Spec.atomic (addPseudo cfg h name chan) (run cfg ops) := by
  intro e he
  rcases addPseudo_out cfg h name chan (run cfg ops) with ⟨e', h'⟩ | ⟨nm, pc, hnm, hpc, ⟨hh, h'⟩ | ⟨_, h'⟩⟩
  · rw [h']
  · rw [h']
    obtain ⟨l, hl⟩ := (Dict.has_iff _ _).1 hh
    have hm : nm ∈ (run cfg ops).pseudoNames := by
      refine listed_run cfg ops chan nm l ?_
      unfold Spec.at2
      cases hp : (run cfg ops).pseudo.get? chan with
      | none => rw [hpc, hp] at hl; cases hl
      | some pc' => rw [hpc, hp] at hl; exact hl
    rw [setAdd_of_mem hm]
  · rw [h'] at he; cases he

/-- C97, data: an `add_data` whose variances are acceptable leaves the writer as it was if it raises. What is missing for
the full claim: variances that are refused, see `c97_data_violated`. -/
theorem c97_data_partial (cfg : Cfg V) (h : HIn V) (chan : String) (vars : Option (HIn V)) (s : State V)
    (hv : ∃ v, (vars.getD h).flatVars false = .ok v) : Spec.atomic (addData cfg h chan vars) s := by
  intro e he
  obtain ⟨v, hv⟩ := hv
  rcases addData_cases cfg h chan vars s with ⟨_, _, h'⟩ | ⟨_, _, h'⟩ | ⟨_, _, ⟨_, h1, h'⟩ | ⟨_, _, h'⟩⟩
  · rw [h']
  · rw [h']
  · rw [hv] at h1; cases h1
  · rw [h'] at he; cases he

/-- C97, data: if `add_data` raises because of the variances, the data stay stored without variances. No further call
for this channel is accepted, and as long as the channel is a fitted one, every `write` raises. -/
theorem c97_data_stuck (cfg : Cfg V) (s : State V) (h : HIn V) (chan : String) (vars : Option (HIn V)) (c : Chan)
    (hc : checkHist cfg s.channels h chan = .ok c) (hno : s.dataObs.has chan = false)
    (hnv : s.dataVar.has chan = false) (hv : ∃ e, (vars.getD h).flatVars false = .error e) (ops : List (Op V)) :
    let s' := runOps cfg (addData cfg h chan vars s).1 ops
    (∃ e, (addData cfg h chan vars s).2 = .error e) ∧ (addData cfg h chan vars s).1 ≠ s ∧
    s'.dataObs.get? chan = some (h.flatVals false) ∧
    (∀ h' vars', ∃ e, addData cfg h' chan vars' s' = (s', .error e)) ∧
    ∀ iter c', (chan, c') ∈ s'.channels → c'.masked = false → ∃ e, (write cfg iter s').2 = .error e := by
  intro s'
  obtain ⟨e, hv⟩ := hv
  have hout : addData cfg h chan vars s = ({ s with dataObs := s.dataObs.set chan (h.flatVals false) }, .error e) := by
    rcases addData_cases cfg h chan vars s with ⟨_, h1, _⟩ | ⟨_, h1, _⟩ | ⟨_, _, ⟨_, h1, h'⟩ | ⟨_, h1, _⟩⟩
    · rw [hc] at h1; cases h1
    · rw [hno] at h1; cases h1
    · rw [hv] at h1; cases h1; exact h'
    · rw [hv] at h1; cases h1
  have hinv : s'.dataObs.get? chan = some (h.flatVals false) ∧ s'.dataVar.get? chan = none := by
    refine runOps_induction (P := fun s => s.dataObs.get? chan = some (h.flatVals false) ∧ s.dataVar.get? chan = none)
      cfg (fun op s hs => ?_) ops _ ⟨by rw [hout]; exact Dict.get?_set_self _ _ _,
        by rw [hout]; exact (Dict.has_eq_false_iff _ _).1 hnv⟩
    have key : ∀ {m : M V Unit}, Keeps (fun s => (s.dataObs, s.dataVar)) m →
        (m s).1.dataObs.get? chan = some (h.flatVals false) ∧ (m s).1.dataVar.get? chan = none := fun hm => by
      have := hm.run s
      simp only [Prod.mk.injEq] at this
      rw [this.1, this.2]; exact hs
    have kc : ∀ {m : M V Unit}, Keeps core m → Keeps (fun s : State V => (s.dataObs, s.dataVar)) m := fun hm =>
      keeps_of_core hm _ fun s t e => by
        have := congrArg (fun c : Core V => (c.dataObs, c.dataVar)) e
        exact this
    cases op with
    | channel axes name m f => exact key (keeps_addChannel _ (fun _ _ _ _ _ _ _ => rfl) ..)
    | dataCov c => exact key ⟨fun _ => rfl⟩
    | pseudo h name c => exact key (keeps_addPseudo _ (fun _ _ _ => rfl) ..)
    | process h name c sig vars => exact key (keeps_addProcess _ (fun _ _ _ _ _ _ _ => rfl) ..)
    | syst x name proc c k m sy t d o => exact key (kc (keeps_addSystematic ..))
    | normSyst name procs c u t sy o => exact key (kc (keeps_addNormSystematic ..))
    | write it => exact key (Keeps.bind (keeps_write _ (fun _ _ => rfl) ..) fun _ => Keeps.pure _)
    | data h' chan' vars' =>
      simp only [step]
      rcases addData_cases cfg h' chan' vars' s with ⟨e, _, he⟩ | ⟨_, _, he⟩ | ⟨_, hh, ⟨e, _, he⟩ | ⟨v, hv, he⟩⟩
      · rw [he]; exact hs
      · rw [he]; exact hs
      all_goals
        have hne : chan' ≠ chan := by
          rintro rfl
          rw [Dict.has_eq_false_iff, hs.1] at hh; cases hh
        rw [he]
        simp only [Dict.get?_set_ne _ _ hne]
        exact hs
  refine ⟨⟨e, by rw [hout]⟩, ?_, hinv.1, fun h' vars' => ?_, fun iter c' hc' hm => ?_⟩
  · rw [hout]
    intro heq
    have := congrArg (fun t : State V => t.dataObs.get? chan) heq
    simp only [Dict.get?_set_self] at this
    rw [(Dict.has_eq_false_iff _ _).1 hno] at this
    cases this
  · have hhas : s'.dataObs.has chan = true := (Dict.has_iff _ _).2 ⟨_, hinv.1⟩
    rcases addData_cases cfg h' chan vars' s' with ⟨e, _, he⟩ | ⟨_, _, he⟩ | ⟨_, hh, _⟩
    · exact ⟨e, he⟩
    · exact ⟨_, he⟩
    · rw [hhas] at hh; cases hh
  · cases hw : (write cfg iter s').2 with
    | error e => exact ⟨e, rfl⟩
    | ok t =>
      exfalso
      obtain ⟨lay, cells, W⟩ := write_ok hw
      obtain ⟨_, _, _, hch, _⟩ := layoutFrom_bounds W.layout
      rw [← hch] at hc'
      obtain ⟨sl, hsl, he⟩ := List.mem_map.1 hc'
      simp only [Prod.mk.injEq] at he
      obtain ⟨f, f', hb⟩ := loop_body_ok W.var sl hsl
      rw [he.2, hm] at hb
      rw [he.1, hinv.2] at hb
      cases hb

/-- C97, templates: an `add_process` refused because the histogram does not fit the channel or because the template is
there already leaves the writer as it was. What is missing for the full claim: contents that are refused, see
`c97_process_violated` and `c97_process_kind`. -/
theorem c97_process_partial (cfg : Cfg V) (h : HIn V) (name chan : String) (sig : Bool) (vars : Option (HIn V))
    (s : State V) (hr : (∃ e, checkHist cfg s.channels h chan = .error e) ∨ Spec.at2 s.norm chan name ≠ none) :
    Spec.atomic (addProcess cfg h name chan sig vars) s ∧ ∃ e, (addProcess cfg h name chan sig vars s).2 = .error e := by
  rcases addProcess_out cfg h name chan sig vars s with ⟨⟨e, he⟩, _⟩ | ⟨c, nc, hc, hn, hh, _⟩
  · exact ⟨fun _ _ => by rw [he], e, by rw [he]⟩
  · exfalso
    rcases hr with ⟨e, he⟩ | hr
    · rw [hc] at he; cases he
    · apply hr
      unfold Spec.at2
      rw [hn]
      exact (Dict.has_eq_false_iff _ _).1 hh

theorem named_named (sig : Bool) (name : String) (s : State V) : named sig name (named sig name s) = named sig name s := by
  unfold named
  cases sig
  · simp only [Bool.false_eq_true, if_false, setAdd_setAdd]
  · simp only [if_true, setAdd_setAdd]

theorem upd2_idem {ν : Type} {d d' : Dict String (Dict String ν)} {a b : String} {v : ν} (h : upd2 d a b v = .ok d') :
    upd2 d' a b v = .ok d' := by
  unfold upd2 at h
  split at h
  · cases h
    unfold upd2
    rw [Dict.get?_set_self]
    dsimp only
    rw [dict_set_set, dict_set_set]
  · cases h

/-- C97, templates: repeating a refused `add_process` with another histogram that fits the channel and the same kind of
process has the same outcome as if the refused call had never been made, in every state. -/
theorem c97_process_retry (cfg : Cfg V) (h h' : HIn V) (name chan : String) (sig : Bool) (vars vars' : Option (HIn V))
    (s : State V) (hr : ∃ e, (addProcess cfg h name chan sig vars s).2 = .error e)
    (hf : ∃ c, checkHist cfg s.channels h' chan = .ok c) :
    addProcess cfg h' name chan sig vars' (addProcess cfg h name chan sig vars s).1 =
      addProcess cfg h' name chan sig vars' s := by
  have n1 : (named sig name s).norm = s.norm := by unfold named; split <;> rfl
  have n2 : (named sig name s).sumw2 = s.sumw2 := by unfold named; split <;> rfl
  have n3 : (named sig name s).logkavg = s.logkavg := by unfold named; split <;> rfl
  have n4 : (named sig name s).logkhalf = s.logkhalf := by unfold named; split <;> rfl
  have n5 : (named sig name s).channels = s.channels := by unfold named; split <;> rfl
  rcases addProcess_out cfg h name chan sig vars s with ⟨⟨e, he⟩, _⟩ | ⟨c, nc, hc, hn, hh, he⟩
  · rw [he]
  · -- the state the refused call leaves behind
    have hst : ∃ t : State V, (addProcess cfg h name chan sig vars s).1 = t ∧ t.channels = s.channels ∧ t.norm = s.norm ∧
        t.sumw2 = s.sumw2 ∧ ((t = named sig name s ∧ ((∃ e, upd2 s.logkavg chan name [] = .error e) ∨
          ∃ e, upd2 s.logkhalf chan name [] = .error e)) ∨
        ∃ avg half, upd2 s.logkavg chan name [] = .ok avg ∧ upd2 s.logkhalf chan name [] = .ok half ∧
          t = { named sig name s with logkavg := avg, logkhalf := half }) := by
      rw [he] at hr ⊢
      refine ⟨_, rfl, ?_⟩
      cases ha : upd2 s.logkavg chan name [] with
      | error e => exact ⟨n5, n1, n2, .inl ⟨rfl, .inl ⟨e, rfl⟩⟩⟩
      | ok avg =>
        dsimp only
        cases hb : upd2 s.logkhalf chan name [] with
        | error e => exact ⟨n5, n1, n2, .inl ⟨rfl, .inr ⟨e, rfl⟩⟩⟩
        | ok half =>
          dsimp only
          rw [ha, hb] at hr
          dsimp only at hr
          cases hp : procNorm cfg h c.flow with
          | error e => exact ⟨n5, n1, n2, .inr ⟨avg, half, rfl, rfl, rfl⟩⟩
          | ok n =>
            rw [hp] at hr
            dsimp only at hr ⊢
            cases hw : procSumw2 h vars c.flow with
            | error e => exact ⟨n5, n1, n2, .inr ⟨avg, half, rfl, rfl, rfl⟩⟩
            | ok w =>
              rw [hw] at hr
              dsimp only at hr ⊢
              cases hw2 : upd2 s.sumw2 chan name w with
              | error e => exact ⟨n5, n1, n2, .inr ⟨avg, half, rfl, rfl, rfl⟩⟩
              | ok w2 =>
                rw [hw2] at hr
                obtain ⟨e, hr⟩ := hr
                cases hr
    obtain ⟨t, ht, t1, t2, t3, tt⟩ := hst
    rw [ht]
    have htn : named sig name t = t := by
      rcases tt with ⟨rfl, _⟩ | ⟨avg, half, _, _, rfl⟩
      · exact named_named _ _ _
      · have := named_named sig name s
        unfold named at this ⊢
        cases sig
        · simp only [Bool.false_eq_true, if_false, setAdd_setAdd]
        · simp only [if_true, setAdd_setAdd]
    obtain ⟨c', hc'⟩ := hf
    have o1 := addProcess_out cfg h' name chan sig vars' s
    have o2 := addProcess_out cfg h' name chan sig vars' t
    rw [t1, t2, t3] at o2
    rcases o1 with ⟨_, ⟨e, h1⟩ | h1 | ⟨nc', h1, h2⟩⟩ | ⟨c1, nc1, g1, g2, g3, g4⟩
    · rw [hc'] at h1; cases h1
    · rw [hn] at h1; cases h1
    · rw [hn] at h1; cases h1; rw [hh] at h2; cases h2
    rcases o2 with ⟨_, ⟨e, h1⟩ | h1 | ⟨nc', h1, h2⟩⟩ | ⟨c2, nc2, f1, f2, f3, f4⟩
    · rw [hc'] at h1; cases h1
    · rw [hn] at h1; cases h1
    · rw [hn] at h1; cases h1; rw [hh] at h2; cases h2
    rw [g1] at f1; cases f1
    rw [g2] at f2; cases f2
    rw [f4, g4, htn]
    rcases tt with ⟨rfl, ⟨e, h1⟩ | ⟨e, h1⟩⟩ | ⟨avg, half, h1, h2, rfl⟩
    · rw [n3, h1]
    · rw [n3, n4, h1]
    · dsimp only
      rw [upd2_idem h1, upd2_idem h2, h1, h2]

/-- C97, templates: if an `add_process` is refused because of the contents of its histogram, the name stays registered as
the given kind of process. If the process is then accepted as the other kind, every later `write` raises. -/
theorem c97_process_kind (cfg : Cfg V) (s : State V) (h : HIn V) (name chan : String) (sig : Bool)
    (vars : Option (HIn V)) (c : Chan) (hc : checkHist cfg s.channels h chan = .ok c)
    (hn : s.norm.get? chan ≠ none) (hno : Spec.at2 s.norm chan name = none)
    (hp : ∃ e, procNorm cfg h c.flow = .error e) :
    (∃ e, (addProcess cfg h name chan sig vars s).2 = .error e) ∧
    name ∈ namesOf sig (addProcess cfg h name chan sig vars s).1 ∧
    ∀ (l r : List (Op V)) op, Spec.isProcess name (!sig) op →
      (step cfg op (runOps cfg (addProcess cfg h name chan sig vars s).1 l)).2 = .ok () →
      ∀ iter, (write cfg iter (runOps cfg (addProcess cfg h name chan sig vars s).1 (l ++ op :: r))).2 = .error .runtime := by
  obtain ⟨e, hp⟩ := hp
  have hmem : ∀ t : State V, name ∈ namesOf sig (named sig name t) := by
    intro t
    unfold namesOf named
    cases sig
    · exact (mem_setAdd _ _ _).2 (.inr rfl)
    · exact (mem_setAdd _ _ _).2 (.inr rfl)
  have key : (∃ e, (addProcess cfg h name chan sig vars s).2 = .error e) ∧
      name ∈ namesOf sig (addProcess cfg h name chan sig vars s).1 := by
    rcases addProcess_out cfg h name chan sig vars s with ⟨_, ⟨e, h1⟩ | h1 | ⟨nc', h1, h2⟩⟩ | ⟨c1, nc1, g1, g2, g3, g4⟩
    · rw [hc] at h1; cases h1
    · exact (hn h1).elim
    · obtain ⟨x, hx⟩ := (Dict.has_iff _ _).1 h2
      unfold Spec.at2 at hno
      rw [h1] at hno
      have : nc'.get? name = none := hno
      rw [hx] at this; cases this
    · rw [hc] at g1; cases g1
      rw [g4]
      cases ha : upd2 s.logkavg chan name [] with
      | error e => exact ⟨⟨e, rfl⟩, hmem s⟩
      | ok avg =>
        dsimp only
        cases hb : upd2 s.logkhalf chan name [] with
        | error e => exact ⟨⟨e, rfl⟩, hmem s⟩
        | ok half =>
          dsimp only
          rw [hp]
          refine ⟨⟨e, rfl⟩, ?_⟩
          have := hmem s
          unfold namesOf at this ⊢
          exact this
  refine ⟨key.1, key.2, fun l r op hop hacc iter => ?_⟩
  have mono : ∀ (g : Bool) (n : String) (ops : List (Op V)) (t : State V), n ∈ namesOf g t → n ∈ namesOf g (runOps cfg t ops) := by
    intro g n ops
    induction ops with
    | nil => exact fun _ h => h
    | cons op ops ih =>
      intro t ht
      refine ih _ ?_
      rcases namesOf_step cfg op t g with ⟨h1, _⟩ | ⟨m, _, h1⟩
      · rw [h1]; exact ht
      · rw [h1]; exact (mem_setAdd _ _ _).2 (.inl ht)
  generalize hs0 : (addProcess cfg h name chan sig vars s).1 = s0 at hacc ⊢
  have m0 : name ∈ namesOf sig s0 := by rw [← hs0]; exact key.2
  have m1 : name ∈ namesOf sig (runOps cfg s0 (l ++ op :: r)) := mono _ _ _ _ m0
  have m2 : name ∈ namesOf (!sig) (runOps cfg s0 (l ++ op :: r)) := by
    rw [runOps_append]
    refine mono _ _ r _ ?_
    rcases namesOf_step cfg op (runOps cfg s0 l) (!sig) with ⟨_, h1⟩ | ⟨m, hm, h1⟩
    · obtain ⟨e, he⟩ := h1 name hop
      rw [hacc] at he; cases he
    · have : m = name := by
        unfold Spec.isProcess at hm hop
        cases op with
        | process _ n _ g _ => exact hm.1.symm.trans hop.1
        | _ => exact hm.elim
      subst this
      rw [h1]; exact (mem_setAdd _ _ _).2 (.inr rfl)
  generalize runOps cfg s0 (l ++ op :: r) = s1 at m1 m2
  have hboth : name ∈ s1.signals ∧ name ∈ s1.bkgs := by
    unfold namesOf at m1 m2
    cases sig
    · exact ⟨m2, m1⟩
    · exact ⟨m1, m2⟩
  have : procsOf s1 = .error .runtime := by
    unfold procsOf
    rw [if_pos (List.any_eq_true.2 ⟨name, hboth.1, by simpa using hboth.2⟩)]
  unfold write
  rw [read_bind, this, lift_error_bind]

/-- an up/down pair: the rest of booking an accepted variation never raises -/
theorem asym_atomic (cfg : Cfg V) (s : State V) (hs : Spec.ready s) {n : Norm V} {chan p : String}
    (hn : Spec.at2 s.norm chan p = some n) (up dn : List V)
    (hup : n.vals.length = up.length ∨ n.vals.length = 1) (hdn : n.vals.length = dn.length ∨ n.vals.length = 1)
    (name : String) (symm : Symm) (toCov : Bool) (o : SystOpts) (ho : (toCov && o.noi) = false) :
    Spec.atomic (do
      let r ← computeAsymSyst cfg up dn name (some p) chan symm toCov n.idx o
      bookLogk cfg false (wrap n.idx r.1) chan (some p) r.2
      bookSystematic r.2 toCov o) s := by
  intro e
  -- booking under a name and registering it
  have fin : ∀ (t : State V) (l : List V) (nm : String), Spec.ready t → t.norm = s.norm →
      (∃ e, (bookLogk cfg false (wrap n.idx l) chan (some p) nm >>= fun _ => bookSystematic nm toCov o) t = (t, .error e) ∧
        ¬ ∃ e, bookedLogk cfg n (wrap n.idx l) = .ok e) ∨
      ∃ t', (bookLogk cfg false (wrap n.idx l) chan (some p) nm >>= fun _ => bookSystematic nm toCov o) t = (t', .ok ()) ∧
        Spec.ready t' ∧ t'.norm = s.norm := by
    intro t l nm ht htn
    rcases bookLogk_out cfg false (wrap n.idx l) chan p nm t ht (by rw [htn]; exact hn) with ⟨e, h1, h2⟩ | ⟨e, t', h1, h2, h3, h4⟩
    · refine .inl ⟨e, by rw [bind_def, h2], ?_⟩
      rintro ⟨e', he'⟩; rw [h1] at he'; cases he'
    · right
      obtain ⟨t'', h5, h6⟩ := bookSystematic_out nm toCov o ho t'
      refine ⟨t'', by rw [bind_def, h2]; exact h5, ready_of_tab h6 h4, ?_⟩
      have := congrArg Prod.fst h6
      exact (show t''.norm = t'.norm from this).trans (h3.trans htn)
  rw [bind_def]
  unfold computeAsymSyst
  cases hz : zipB (fun u d => (computeAsym cfg.num symm u d).avg) up dn with
  | error e' => exact fun _ => rfl
  | ok avg =>
    rw [lift_ok_bind]
    have hcompat := (zipB_ok_iff (fun u d => (computeAsym cfg.num symm u d).avg) up dn).1 ⟨avg, hz⟩
    cases symm with
    | conservative | average =>
      dsimp only
      rw [pure'_def]
      dsimp only
      rcases fin s avg name hs rfl with ⟨e', h1, _⟩ | ⟨t', h1, _⟩
      · rw [h1]; exact fun _ => rfl
      · rw [h1]; intro h; cases h
    | linear | quadratic =>
      dsimp only
      obtain ⟨diff, hd⟩ := (zipB_ok_iff (fun u d => ((computeAsym cfg.num _ u d).symDiff).getD 0) up dn).2 hcompat
      rw [hd, lift_ok_bind]
      have hlen : diff.length = avg.length := by rw [zipB_length hd, zipB_length hz]
      rcases fin s diff (name ++ "SymDiff") hs rfl with ⟨e', h1, _⟩ | ⟨t', h1, h2, h3⟩
      · rw [bind_def] at h1 ⊢
        generalize bookLogk cfg false (wrap n.idx diff) chan (some p) (name ++ "SymDiff") s = q at h1 ⊢
        obtain ⟨q1, q2⟩ := q
        cases q2 with
        | error e2 => cases h1; exact fun _ => rfl
        | ok a =>
          dsimp only at h1 ⊢
          rw [bind_def, h1]
          exact fun _ => rfl
      · have hq : (bookLogk cfg false (wrap n.idx diff) chan (some p) (name ++ "SymDiff") >>= fun _ =>
            bookSystematic (name ++ "SymDiff") toCov o >>= fun _ => M.pure (avg, name ++ "SymAvg")) s =
            (t', .ok (avg, name ++ "SymAvg")) := by
          rw [bind_def] at h1 ⊢
          generalize bookLogk cfg false (wrap n.idx diff) chan (some p) (name ++ "SymDiff") s = q at h1 ⊢
          obtain ⟨q1, q2⟩ := q
          cases q2 with
          | error e2 => cases h1
          | ok a =>
            dsimp only at h1 ⊢
            rw [bind_def, h1]
            rfl
        rw [hq]
        dsimp only
        rcases fin t' avg (name ++ "SymAvg") h2 h3 with ⟨e', g1, g2⟩ | ⟨t2, g1, _⟩
        · exfalso
          apply g2
          rw [bookedLogk_ok_iff, ← hlen, ← bookedLogk_ok_iff cfg]
          rcases bookLogk_out cfg false (wrap n.idx diff) chan p (name ++ "SymDiff") s hs hn with ⟨e3, k1, k2⟩ | ⟨e3, _, k1, _⟩
          · rw [bind_def, k2] at h1; cases h1
          · exact ⟨e3, k1⟩
        · rw [g1]; intro h; cases h
    | none =>
      dsimp only
      rw [raiseIf_bind]
      cases toCov with
      | true => exact fun _ => rfl
      | false =>
        simp only [Bool.false_eq_true, if_false, modify_bind]
        obtain ⟨hd, hhd⟩ := (zipB_ok_iff (fun u d => ((computeAsym cfg.num .none u d).halfdiff).getD 0) up dn).2 hcompat
        rw [hhd, lift_ok_bind]
        have hl : ∀ r : List V, r.length = (if up.length = dn.length then up.length else if up.length = 1 then dn.length
            else up.length) → n.vals.length = r.length ∨ n.vals.length = 1 := by
          intro r hr
          rcases hup with h1 | h1
          · rcases hdn with h2 | h2
            · left; rw [hr, ← h1, ← h2]; simp
            · exact .inr h2
          · exact .inr h1
        have okk : ∀ r : List V, r.length = (if up.length = dn.length then up.length else if up.length = 1 then dn.length
            else up.length) → ∃ e, bookedLogk cfg n (wrap n.idx r) = .ok e := by
          intro r hr
          rw [bookedLogk_ok_iff]
          rcases hl r hr with h1 | h1
          · exact .inr (.inl h1)
          · exact .inr (.inr (.inl h1))
        have hs' : Spec.ready ({ s with symmetric := false } : State V) := ready_of_tab (s := s) rfl hs
        rcases bookLogk_out cfg true (wrap n.idx hd) chan p name { s with symmetric := false } hs' hn with
          ⟨e3, k1, _⟩ | ⟨e3, t', k1, k2, k3, k4⟩
        · obtain ⟨e4, h4⟩ := okk hd (zipB_length hhd)
          rw [h4] at k1; cases k1
        · rw [bind_def, k2]
          dsimp only
          rw [pure'_def]
          dsimp only
          rcases fin t' avg name k4 k3 with ⟨e', g1, g2⟩ | ⟨t2, g1, _⟩
          · exact (g2 (okk avg (zipB_length hz))).elim
          · rw [g1]; intro h; cases h

theorem logkVals_length {N : Num V} {t : SystType} {kfac : V} {sv : List (FVal V)} {norm l : List V}
    (h : logkVals N t kfac sv norm = .ok l) : norm.length = l.length ∨ norm.length = 1 := by
  unfold logkVals at h
  cases hf : finites sv with
  | none => rw [hf] at h; cases h
  | some f =>
    rw [hf] at h
    dsimp only at h
    split at h
    · cases h
    · have hl := zipB_length h
      rcases (zipB_ok_iff _ _ _).1 ⟨l, h⟩ with h1 | h1 | h1
      · left; rw [hl, if_pos h1, h1]
      · left
        rw [hl]
        split
        · rename_i h2; exact h2.symm
        · rfl
      · exact .inr h1

/-- a value that may raise, followed by something that changes nothing when it raises -/
theorem atomic_lift {α : Type} {r : Res α} {f : α → M V Unit} {s : State V}
    (h : ∀ a, r = .ok a → Spec.atomic (f a) s) : Spec.atomic (lift r >>= f) s := by
  intro e
  cases r with
  | error e' => exact fun _ => rfl
  | ok a => rw [lift_ok_bind]; exact h a rfl e

/-- C97, variations: after any history of calls, an `add_systematic` that raises leaves the writer as it was, unless a
nuisance parameter of interest is to be added to the data covariance. What is missing for the full claim is that case,
see `c97_syst_violated`. -/
theorem c97_syst_partial (cfg : Cfg V) (ops : List (Op V)) (x : SystIn V) (name proc chan : String) (kfac : V)
    (mirror : Bool) (symm : Symm) (toCov asDiff : Bool) (o : SystOpts) (ho : (toCov && o.noi) = false) :
    Spec.atomic (addSystematic cfg x name proc chan kfac mirror symm toCov asDiff o) (run cfg ops) := by
  have hs := ready_run cfg ops
  generalize run cfg ops = s at hs
  unfold addSystematic
  show Spec.atomic (M.read >>= _) s
  intro e
  rw [read_bind]
  revert e
  refine atomic_lift fun nc hnc => atomic_lift fun n hn => atomic_lift fun c _ => ?_
  have hat := get_at2 hnc hn
  dsimp only
  cases x with
  | pair hu hd =>
    refine atomic_lift fun _ _ => atomic_lift fun _ _ => atomic_lift fun _ _ => atomic_lift fun _ _ =>
      atomic_lift fun _ _ => atomic_lift fun _ _ => atomic_lift fun up h1 => atomic_lift fun dn h2 => ?_
    refine asym_atomic cfg s hs hat up (dn.map fun v => -v) (logkVals_length h1) ?_ name symm toCov o ho
    rw [List.length_map]
    exact logkVals_length h2
  | single h =>
    dsimp only
    intro e
    rw [raiseIf_bind]
    split
    · exact fun _ => rfl
    · revert e
      refine atomic_lift fun _ _ => atomic_lift fun _ _ => atomic_lift fun _ _ => atomic_lift fun lk _ => ?_
      intro e
      rcases bookLogk_out cfg false (wrap n.idx lk) chan proc name s hs hat with ⟨e', _, h2⟩ | ⟨_, s', _, h2, _, _⟩
      · rw [bind_def, h2]; exact fun _ => rfl
      · obtain ⟨t, ht, _⟩ := bookSystematic_out name toCov o ho s'
        rw [bind_def, h2]
        dsimp only
        rw [ht]
        intro h; cases h

theorem normLoop_out (cfg : Cfg V) (name chan : String) (toCov : Bool) (symm : Symm) (o : SystOpts)
    (ht : effType cfg toCov ≠ .other) (l : List (String × Unc V)) :
    ∀ (v : String) (s : State V), Spec.ready s →
      (∀ x ∈ l, Spec.at2 s.norm chan x.1 ≠ none ∧ ∃ u, x.2 = .num u) →
      ∃ s' w, normLoop cfg name chan toCov symm o v l s = (s', .ok w) := by
  induction l with
  | nil => exact fun v s _ _ => ⟨s, v, rfl⟩
  | cons x l ih =>
    obtain ⟨p, u⟩ := x
    intro v s hs hl
    obtain ⟨hp, u, hu⟩ := hl (p, u) (List.mem_cons_self ..)
    dsimp only at hp hu
    subst hu
    obtain ⟨n, hn⟩ := Option.ne_none_iff_exists'.1 hp
    have hat : ∃ nc, s.norm.get? chan = some nc ∧ nc.get? p = some n := by
      unfold Spec.at2 at hn
      cases hc : s.norm.get? chan with
      | none => rw [hc] at hn; cases hn
      | some nc => rw [hc] at hn; exact ⟨nc, rfl, hn⟩
    obtain ⟨nc, h1, h2⟩ := hat
    have hlk : ∃ lk, logkVals cfg.num (effType cfg toCov) 1 (n.vals.map fun v => FVal.fin (v * u)) n.vals = .ok lk ∧
        lk.length = n.vals.length := by
      have hf : finites (n.vals.map fun v => FVal.fin (v * u)) = some (n.vals.map fun v => v * u) := by
        rw [finites_eq_some, List.map_map]; rfl
      unfold logkVals
      rw [hf]
      dsimp only
      rw [if_neg ht]
      unfold zipB
      rw [if_pos (by rw [List.length_map])]
      exact ⟨_, rfl, by simp⟩
    obtain ⟨lk, hlk, hlen⟩ := hlk
    have hone : ∃ s', normOne cfg name chan toCov symm o v p (.num u) s = (s', .ok v) ∧ s'.norm = s.norm ∧ Spec.ready s' := by
      unfold normOne
      rw [read_bind]
      simp only [Dict.get, h1, h2, lift_ok_bind, hlk]
      rcases bookLogk_out cfg false (wrap n.idx lk) chan p v s hs hn with ⟨e', k1, _⟩ | ⟨_, s', _, k2, k3, k4⟩
      · obtain ⟨e, he⟩ := (bookedLogk_ok_iff cfg n lk).2 (.inr (.inl hlen.symm))
        rw [he] at k1; cases k1
      · refine ⟨s', ?_, k3, k4⟩
        rw [bind_def, k2]; rfl
    obtain ⟨s', g1, g2, g3⟩ := hone
    unfold normLoop
    rw [bind_def, g1]
    refine ih v s' g3 fun x hx => ?_
    rw [g2]
    exact hl x (List.mem_cons_of_mem _ hx)

/-- C97, normalisations: after any history of calls, an `add_norm_systematic` that raises leaves the writer as it was if
every named process has a template in the channel, the uncertainties are numbers, the type of the systematics is a valid
one and no parameter of interest is to be added to the data covariance; with these it raises only for lists of different
lengths. What is missing for the full claim: see `c97_norm_violated`. -/
theorem c97_norm_partial (cfg : Cfg V) (ops : List (Op V)) (name : String) (procs : List String) (chan : String)
    (unc : List (Unc V)) (toCov : Bool) (symm : Symm) (o : SystOpts) (ho : (toCov && o.noi) = false)
    (ht : cfg.systType ≠ .other) (hp : ∀ p ∈ procs, Spec.at2 (run cfg ops).norm chan p ≠ none)
    (hu : ∀ x ∈ unc, ∃ u, x = .num u) :
    Spec.atomic (addNormSystematic cfg name procs chan unc toCov symm o) (run cfg ops) ∧
    ((∃ e, (addNormSystematic cfg name procs chan unc toCov symm o (run cfg ops)).2 = .error e) ↔
      unc.length ≠ 1 ∧ procs.length ≠ unc.length) := by
  have ht' : effType cfg toCov ≠ .other := by
    unfold effType
    split
    · intro h; cases h
    · exact ht
  obtain ⟨s', w, h1⟩ := normLoop_out cfg name chan toCov symm o ht' (procs.zip unc) name (run cfg ops) (ready_run cfg ops)
    (fun x hx => ⟨hp _ (List.of_mem_zip hx).1, hu _ (List.of_mem_zip hx).2⟩)
  obtain ⟨s2, h2, _⟩ := bookSystematic_out w toCov o ho s'
  have hrest : (normLoop cfg name chan toCov symm o name (procs.zip unc) >>= fun v => bookSystematic v toCov o) (run cfg ops) =
      (s2, .ok ()) := by
    rw [bind_def, h1]; exact h2
  unfold addNormSystematic
  by_cases hl : (unc.length != 1 && procs.length != unc.length) = true
  · refine ⟨fun e => ?_, fun _ => by simpa using hl, fun _ => ?_⟩
    · rw [raiseIf_bind, hl]; exact fun _ => rfl
    · rw [raiseIf_bind, hl]; exact ⟨_, rfl⟩
  · have hl' : (unc.length != 1 && procs.length != unc.length) = false := by simpa using hl
    refine ⟨fun e => ?_, fun h => ?_, fun h => ?_⟩
    · rw [raiseIf_bind, hl']
      simp only [Bool.false_eq_true, if_false]
      rw [hrest]; intro h; cases h
    · obtain ⟨e, he⟩ := h
      rw [raiseIf_bind, hl'] at he
      simp only [Bool.false_eq_true, if_false] at he
      rw [hrest] at he; cases he
    · exact (hl (by simpa using h)).elim

/-- C97, writing: whether it succeeds or raises, `write` changes nothing but the data covariance. -/
theorem c97_write (cfg : Cfg V) (iter : List String → List String) (s : State V) :
    ∃ c, (write cfg iter s).1 = { s with dataCov := c } := by
  have h := (keeps_write (V := V) (fun s => ({ s with dataCov := none } : State V)) (fun _ _ => rfl) cfg iter).run s
  refine ⟨(write cfg iter s).1.dataCov, ?_⟩
  have h' : ({ (write cfg iter s).1 with dataCov := none } : State V) = { s with dataCov := none } := h
  generalize (write cfg iter s).1 = t at h' ⊢
  obtain ⟨⟩ := t
  cases h'
  rfl

/-! ### C97: calls that leave something behind -/

/-- C97 violated, data: an `add_data` is refused because of a negative variance; the corrected call is refused because
there are data already, and the file cannot be written any more. -/
theorem c97_data_violated : ∃ (cfg : Cfg ℚ) (ops : List (Op ℚ)) (bad good : Op ℚ),
    (∃ h v, bad = .data h "a" (some v)) ∧ (∃ h v, good = .data h "a" (some v)) ∧
    (step cfg good (run cfg ops)).2 = .ok () ∧ (write cfg id (run cfg (ops ++ [good]))).2.isOk = true ∧
    (step cfg bad (run cfg ops)).2 = .error .value ∧ (step cfg bad (run cfg ops)).1 ≠ run cfg ops ∧
    (step cfg good (run cfg (ops ++ [bad]))).2 = .error .runtime ∧
    (write cfg id (run cfg (ops ++ [bad, good]))).2.isOk = false := by
  refine ⟨Ex.cfg, [.channel [Ex.ax 2] (some "a") false false, .process (Ex.h [1, 2]) "p" "a" true none],
    .data (Ex.h [1, 2]) "a" (some (Ex.h [1, -2])), .data (Ex.h [1, 2]) "a" (some (Ex.h [1, 2])),
    ⟨_, _, rfl⟩, ⟨_, _, rfl⟩, by decide +kernel, by decide +kernel, by decide +kernel, ?_, by decide +kernel,
    by decide +kernel⟩
  intro h
  have := congrArg (fun s : State ℚ => s.dataObs.length) h
  revert this
  decide +kernel

/-- C97 violated, templates: an `add_process` is refused because of a NaN and never repeated; the process is in the file
all the same, as a signal without any yield. -/
theorem c97_process_violated : ∃ (cfg : Cfg ℚ) (ops : List (Op ℚ)) (bad : Op ℚ) (t t' : Tensor ℚ),
    (∃ h, bad = .process h "q" "a" true none) ∧ (step cfg bad (run cfg ops)).2 = .error .runtime ∧
    (write cfg id (run cfg ops)).2 = .ok t ∧ (write cfg id (run cfg (ops ++ [bad]))).2 = .ok t' ∧
    t.procs = ["p"] ∧ t'.procs = ["p", "q"] ∧ t'.signals = ["p", "q"] ∧ t'.nbinsfull = 2 ∧
    t'.sumw 0 1 = 0 ∧ t'.sumw 1 1 = 0 := by
  let ops : List (Op ℚ) := [.channel [Ex.ax 2] (some "a") false false, .process (Ex.h [1, 2]) "p" "a" true none,
    .data (Ex.h [1, 2]) "a" none]
  let bad : Op ℚ := .process (.hist [Ex.ax 2] (fun _ => [.fin 1, .nan]) (fun _ => [.fin 1, .fin 1])) "q" "a" true none
  obtain ⟨t, h1, h2⟩ := written_of (r := (write Ex.cfg id (run Ex.cfg ops)).2)
    (f := fun t => t.procs) (v := ["p"]) (by decide +kernel)
  obtain ⟨t', h1', h2'⟩ := written_of (r := (write Ex.cfg id (run Ex.cfg (ops ++ [bad]))).2)
    (f := fun t => (t.procs, t.signals, t.nbinsfull, t.sumw 0 1, t.sumw 1 1))
    (v := (["p", "q"], ["p", "q"], 2, 0, 0)) (by decide +kernel)
  simp only [Prod.mk.injEq] at h2'
  exact ⟨Ex.cfg, ops, bad, t, t', ⟨_, rfl⟩, by decide +kernel, h1, h1', h2, h2'⟩

/-- the dense variation of bin 0 of the process at position `p` in the file -/
def Spec.logk0 (t : Tensor V) (p : Nat) : Option V :=
  match t.body with
  | .dense _ lk => some (lk 0 p 0 0)
  | .sparse _ => none

/-- C97 violated, variations: an `add_systematic` that would add a parameter of interest to the data covariance is refused
after its variation has been stored. A nuisance of the same name is then accepted for another process; in the file the
first process varies too, with the template of the refused call. -/
theorem c97_syst_violated : ∃ (cfg : Cfg ℚ) (ops : List (Op ℚ)) (bad good : Op ℚ) (t t' : Tensor ℚ),
    (∃ h o, bad = .syst (.single h) "n" "p" "a" 1 true .average true false o ∧ o.noi = true) ∧
    (∃ h, good = .syst (.single h) "n" "q" "a" 1 true .average false false {}) ∧
    (step cfg bad (run cfg ops)).2 = .error .value ∧ (step cfg bad (run cfg ops)).1 ≠ run cfg ops ∧
    (step cfg good (run cfg (ops ++ [bad]))).2 = .ok () ∧
    (write cfg id (run cfg (ops ++ [good]))).2 = .ok t ∧ (write cfg id (run cfg (ops ++ [bad, good]))).2 = .ok t' ∧
    t.procs = ["p", "q"] ∧ t'.procs = ["p", "q"] ∧ t.systs = ["n"] ∧ t'.systs = ["n"] ∧
    Spec.logk0 t 0 = some 0 ∧ Spec.logk0 t' 0 = some 2 ∧ Spec.logk0 t 1 = Spec.logk0 t' 1 := by
  let ops : List (Op ℚ) := [.channel [Ex.ax 1] (some "a") false false, .process (Ex.h [1]) "p" "a" true none,
    .process (Ex.h [1]) "q" "a" true none, .data (Ex.h [2]) "a" none]
  let bad : Op ℚ := .syst (.single (Ex.h [3])) "n" "p" "a" 1 true .average true false { noi := true }
  let good : Op ℚ := .syst (.single (Ex.h [5])) "n" "q" "a" 1 true .average false false {}
  obtain ⟨t, h1, h2⟩ := written_of (r := (write Ex.cfg id (run Ex.cfg (ops ++ [good]))).2)
    (f := fun t => (t.procs, t.systs, Spec.logk0 t 0, Spec.logk0 t 1)) (v := (["p", "q"], ["n"], some 0, some 4))
    (by decide +kernel)
  obtain ⟨t', h1', h2'⟩ := written_of (r := (write Ex.cfg id (run Ex.cfg (ops ++ [bad, good]))).2)
    (f := fun t => (t.procs, t.systs, Spec.logk0 t 0, Spec.logk0 t 1)) (v := (["p", "q"], ["n"], some 2, some 4))
    (by decide +kernel)
  simp only [Prod.mk.injEq] at h2 h2'
  refine ⟨Ex.cfg, ops, bad, good, t, t', ⟨_, _, rfl, rfl⟩, ⟨_, rfl⟩, by decide +kernel, ?_, by decide +kernel, h1, h1',
    h2.1, h2'.1, h2.2.1, h2'.2.1, h2.2.2.1, h2'.2.2.1, by rw [h2.2.2.2, h2'.2.2.2]⟩
  intro h
  have := congrArg (fun s : State ℚ => (Spec.at3 s.logkavg "a" "p" "n").isSome) h
  revert this
  decide +kernel

/-- C97 violated, normalisations: an `add_norm_systematic` is refused because its second process is unknown, after the
variation of the first has been stored. The same nuisance is then accepted for another process; in the file the first
process varies too. -/
theorem c97_norm_violated : ∃ (cfg : Cfg ℚ) (ops : List (Op ℚ)) (bad good : Op ℚ) (t t' : Tensor ℚ),
    bad = .normSyst "n" ["p", "x"] "a" [.num 2, .num 2] false .average {} ∧
    good = .normSyst "n" ["q"] "a" [.num 3] false .average {} ∧
    (step cfg bad (run cfg ops)).2 = .error .key ∧ (step cfg bad (run cfg ops)).1 ≠ run cfg ops ∧
    (step cfg good (run cfg (ops ++ [bad]))).2 = .ok () ∧
    (write cfg id (run cfg (ops ++ [good]))).2 = .ok t ∧ (write cfg id (run cfg (ops ++ [bad, good]))).2 = .ok t' ∧
    t.procs = ["p", "q"] ∧ t'.procs = ["p", "q"] ∧ t.systs = ["n"] ∧ t'.systs = ["n"] ∧
    Spec.logk0 t 0 = some 0 ∧ Spec.logk0 t' 0 = some 1 ∧ Spec.logk0 t 1 = Spec.logk0 t' 1 := by
  let ops : List (Op ℚ) := [.channel [Ex.ax 1] (some "a") false false, .process (Ex.h [1]) "p" "a" true none,
    .process (Ex.h [1]) "q" "a" true none, .data (Ex.h [2]) "a" none]
  let bad : Op ℚ := .normSyst "n" ["p", "x"] "a" [.num 2, .num 2] false .average {}
  let good : Op ℚ := .normSyst "n" ["q"] "a" [.num 3] false .average {}
  obtain ⟨t, h1, h2⟩ := written_of (r := (write Ex.cfg id (run Ex.cfg (ops ++ [good]))).2)
    (f := fun t => (t.procs, t.systs, Spec.logk0 t 0, Spec.logk0 t 1)) (v := (["p", "q"], ["n"], some 0, some 2))
    (by decide +kernel)
  obtain ⟨t', h1', h2'⟩ := written_of (r := (write Ex.cfg id (run Ex.cfg (ops ++ [bad, good]))).2)
    (f := fun t => (t.procs, t.systs, Spec.logk0 t 0, Spec.logk0 t 1)) (v := (["p", "q"], ["n"], some 1, some 2))
    (by decide +kernel)
  simp only [Prod.mk.injEq] at h2 h2'
  refine ⟨Ex.cfg, ops, bad, good, t, t', rfl, rfl, by decide +kernel, ?_, by decide +kernel, h1, h1',
    h2.1, h2'.1, h2.2.1, h2'.2.1, h2.2.2.1, h2'.2.2.1, by rw [h2.2.2.2, h2'.2.2.2]⟩
  intro h
  have := congrArg (fun s : State ℚ => (Spec.at3 s.logkavg "a" "p" "n").isSome) h
  revert this
  decide +kernel

/-! ### The hypotheses are met -/

/-- calls that are refused: a fitted channel with flow bins, pseudo-data under a name in use, data that are there, a template
that is there, a variation without the other direction, lists of different lengths -/
example :
    let ops : List (Op ℚ) := [.channel [Ex.ax 1] (some "a") false false, .process (Ex.h [1]) "p" "a" true none,
      .data (Ex.h [2]) "a" none, .pseudo (Ex.h [2]) (some "d") "a"]
    (addChannel [Ex.ax 1] none false true (run Ex.cfg ops)).2 = .error .notImpl ∧
    (addPseudo Ex.cfg (Ex.h [2]) (some "d") "a" (run Ex.cfg ops)).2 = .error .runtime ∧
    (addData Ex.cfg (Ex.h [2]) "a" none (run Ex.cfg ops)).2 = .error .runtime ∧
    (addProcess Ex.cfg (Ex.h [2]) "p" "a" true none (run Ex.cfg ops)).2 = .error .runtime ∧
    (addSystematic Ex.cfg (.single (Ex.h [2])) "n" "p" "a" 1 false .average false false {} (run Ex.cfg ops)).2 =
      .error .runtime ∧
    (addNormSystematic Ex.cfg "n" ["p", "p", "p"] "a" [.num 2, .num 3] false .average {} (run Ex.cfg ops)).2 =
      .error .runtime ∧
    Spec.at2 (run Ex.cfg ops).norm "a" "p" ≠ none := by decide +kernel

/-- a pair that is refused because an asymmetric variation cannot be added to the data covariance, and one that is refused
because a value is not finite -/
example :
    let ops : List (Op ℚ) := [.channel [Ex.ax 1] (some "a") false false, .process (Ex.h [1]) "p" "a" true none]
    (addSystematic Ex.cfg (.pair (Ex.h [2]) (Ex.h [3])) "n" "p" "a" 1 true .none true false {} (run Ex.cfg ops)).2 =
      .error .runtime ∧
    (addSystematic Ex.cfg (.pair (Ex.h [2]) (.hist [Ex.ax 1] (fun _ => [.nan]) (fun _ => [.fin 1]))) "n" "p" "a" 1 true
      .linear false false {} (run Ex.cfg ops)).2 = .error .runtime := by decide +kernel

/-- the hypotheses of `c97_data_stuck`, `c97_process_retry` and `c97_process_kind` are met -/
example :
    let s := run Ex.cfg [.channel [Ex.ax 1] (some "a") false false]
    let bad : HIn ℚ := .hist [Ex.ax 1] (fun _ => [.nan]) (fun _ => [.fin 1])
    checkHist Ex.cfg s.channels (Ex.h [1]) "a" = .ok ⟨[Ex.ax 1], false, false⟩ ∧
    s.dataObs.has "a" = false ∧ s.dataVar.has "a" = false ∧ (Ex.h [-1]).flatVars false = .error .value ∧
    checkHist Ex.cfg s.channels bad "a" = .ok ⟨[Ex.ax 1], false, false⟩ ∧
    s.norm.get? "a" ≠ none ∧ Spec.at2 s.norm "a" "q" = none ∧ procNorm Ex.cfg bad false = .error .runtime ∧
    (addProcess Ex.cfg bad "q" "a" true none s).2 = .error .runtime ∧
    (step Ex.cfg (.process (Ex.h [1]) "q" "a" false none) (addProcess Ex.cfg bad "q" "a" true none s).1).2 = .ok () := by
  decide +kernel

end Verif.Writer
