import Verif.Lemmas.SparseTotal

/-! Helper lemmas: half differences are stored only for nuisances that stay out of the covariance. -/

namespace Verif.Writer

open Verif.Logk M

set_option linter.unusedSectionVars false

variable {V : Type} [Field V] [LinearOrder V]

/-- the half differences have names of `A` -/
structure Halves (A : String → Prop) (s : State V) : Prop where
  named : ∀ c p m e, Spec.at3 s.logkhalf c p m = some e → A m

theorem Halves.of_half {A : String → Prop} {s s' : State V} (h : s'.logkhalf = s.logkhalf) (hs : Halves A s) : Halves A s' :=
  ⟨by rw [h]; exact hs.1⟩

theorem Halves.of_tab {A : String → Prop} {s s' : State V} (h : tab s' = tab s) (hs : Halves A s) : Halves A s' := by
  simp only [tab, Prod.mk.injEq] at h
  exact hs.of_half h.2.2

theorem presH_bookLogk (cfg : Cfg V) (A : String → Prop) (half : Bool) (lk : LogkIn V) (chan name : String) (proc : Option String)
    (hA : half = true → A name) : Pres (Halves A) (bookLogk cfg half lk chan proc name) := by
  refine ⟨fun s hs => ?_⟩
  unfold bookLogk
  rw [read_bind]
  cases proc with
  | none => exact hs
  | some q =>
    rw [lift_ok_bind]
    cases hnc : s.norm.get chan with
    | error e => exact hs
    | ok nc =>
      rw [lift_ok_bind]
      cases hn : nc.get q with
      | error e => exact hs
      | ok n =>
        rw [lift_ok_bind]
        cases he : bookedLogk cfg n lk with
        | error e => exact hs
        | ok e =>
          rw [lift_ok_bind]
          cases half with
          | true =>
            simp only [if_true]
            cases hd : upd3 s.logkhalf chan q name e with
            | error _ => exact hs
            | ok d =>
              refine ⟨fun c p m e' h => ?_⟩
              have h' : Spec.at3 d c p m = some e' := h
              rw [upd3_at hd] at h'
              split at h'
              · rename_i hx
                obtain ⟨rfl, rfl, rfl⟩ := hx
                exact hA rfl
              · exact hs.1 c p m e' h'
          | false =>
            simp only [Bool.false_eq_true, if_false]
            cases hd : upd3 s.logkavg chan q name e with
            | error _ => exact hs
            | ok d => exact ⟨hs.1⟩

theorem presH_bookSystematic (A : String → Prop) (name : String) (toCov : Bool) (o : SystOpts) :
    Pres (Halves A) (bookSystematic name toCov o : M V Unit) :=
  Pres.of_keeps (keepsTab_bookSystematic ..) fun _ _ h hs => hs.of_tab h

theorem presH_computeAsymSyst (cfg : Cfg V) (A : String → Prop) (up down : List V) (name : String)
    (proc : Option String) (chan : String) (symm : Symm) (toCov : Bool) (idx : Option (List Nat)) (o : SystOpts)
    (hA : toCov = false → symm = .none → A name) :
    Pres (Halves A) (computeAsymSyst cfg up down name proc chan symm toCov idx o) := by
  unfold computeAsymSyst
  refine Pres.bind (Pres.lift _) fun avg => ?_
  cases symm with
  | conservative => exact Pres.pure _
  | average => exact Pres.pure _
  | linear | quadratic =>
    exact Pres.bind_lift fun _ h => Pres.bind (presH_bookLogk _ _ _ _ _ _ _ (by rintro ⟨⟩)) fun _ =>
      Pres.bind (presH_bookSystematic ..) fun _ => Pres.pure _
  | none =>
    cases toCov with
    | true => exact ⟨fun s hs => hs⟩
    | false =>
      refine Pres.bind (Pres.raiseIf _ _) fun _ => Pres.bind ⟨fun s hs => ⟨hs.1⟩⟩ fun _ => Pres.bind_lift fun _ h =>
        Pres.bind (presH_bookLogk _ _ _ _ _ _ _ fun _ => hA rfl rfl) fun _ => Pres.pure _

theorem presH_normOne (cfg : Cfg V) (A : String → Prop) (name chan : String) (toCov : Bool) (symm : Symm) (o : SystOpts) (v p : String)
    (u : Unc V) (hA : toCov = false → A name) : Pres (Halves A) (normOne cfg name chan toCov symm o v p u) := by
  unfold normOne
  refine Pres.bind ⟨fun _ h => h⟩ fun s0 => Pres.bind (Pres.lift _) fun nc => Pres.bind (Pres.lift _) fun n => ?_
  dsimp only
  split
  · exact Pres.bind_lift fun _ h => Pres.bind (presH_bookLogk _ _ _ _ _ _ _ (by rintro ⟨⟩)) fun _ => Pres.pure _
  · refine Pres.bind_lift fun a ha => Pres.bind_lift fun b hb => ?_
    exact Pres.bind (presH_computeAsymSyst _ _ _ _ _ _ _ _ _ _ _ fun h _ => hA h) fun r =>
      Pres.bind (presH_bookLogk _ _ _ _ _ _ _ (by rintro ⟨⟩)) fun _ => Pres.pure _
  · exact Pres.raise _

theorem presH_normLoop (cfg : Cfg V) (A : String → Prop) (name chan : String) (toCov : Bool) (symm : Symm) (o : SystOpts)
    (hA : toCov = false → A name) (l : List (String × Unc V)) : ∀ v, Pres (Halves A) (normLoop cfg name chan toCov symm o v l) := by
  induction l with
  | nil => exact fun v => Pres.pure v
  | cons x l ih =>
    obtain ⟨p, u⟩ := x
    intro v
    exact Pres.bind (presH_normOne _ _ _ _ _ _ _ _ _ _ hA) fun r => ih r

theorem presH_addSystematic (cfg : Cfg V) (A : String → Prop) (x : SystIn V) (name proc chan : String) (kfac : V) (mirror : Bool)
    (symm : Symm) (toCov asDiff : Bool) (o : SystOpts) (hA : toCov = false → (∃ u d, x = .pair u d) → symm = .none → A name) :
    Pres (Halves A) (addSystematic cfg x name proc chan kfac mirror symm toCov asDiff o) := by
  unfold addSystematic
  refine Pres.bind ⟨fun _ h => h⟩ fun s0 => Pres.bind (Pres.lift _) fun nc => Pres.bind (Pres.lift _) fun n => Pres.bind (Pres.lift _) fun c => ?_
  cases x with
  | single hh =>
    exact Pres.bind (Pres.raiseIf _ _) fun _ => Pres.bind (Pres.lift _) fun _ => Pres.bind (Pres.lift _) fun _ => Pres.bind (Pres.lift _) fun _ =>
      Pres.bind (Pres.lift _) fun _ => Pres.bind (presH_bookLogk _ _ _ _ _ _ _ (by rintro ⟨⟩)) fun _ => presH_bookSystematic ..
  | pair u d =>
    exact Pres.bind (Pres.lift _) fun _ => Pres.bind (Pres.lift _) fun _ => Pres.bind (Pres.lift _) fun _ =>
      Pres.bind (Pres.lift _) fun _ => Pres.bind (Pres.lift _) fun _ => Pres.bind (Pres.lift _) fun _ => Pres.bind (Pres.lift _) fun _ =>
      Pres.bind (Pres.lift _) fun _ => Pres.bind (presH_computeAsymSyst _ _ _ _ _ _ _ _ _ _ _ fun h h' => hA h ⟨_, _, rfl⟩ h') fun r =>
      Pres.bind (presH_bookLogk _ _ _ _ _ _ _ (by rintro ⟨⟩)) fun _ => presH_bookSystematic ..

theorem halves_addChannel (A : String → Prop) (axes : List Axis) (name : Option String) (masked flow : Bool) :
    Pres (Halves A) (addChannel axes name masked flow : M V Unit) := by
  refine ⟨fun s hs => ?_⟩
  unfold addChannel
  rw [raiseIf_bind]
  split
  · exact hs
  rw [read_bind]
  set nm := name.getD s!"ch{s.channels.length}" with hnm
  clear_value nm
  refine ⟨fun c p m e h => ?_⟩
  have h' : Spec.at3 (s.logkhalf.set nm []) c p m = some e := h
  rw [at3_of_set_nil] at h'
  split at h'
  · cases h'
  · exact hs.1 c p m e h'

theorem halves_addProcess (cfg : Cfg V) (A : String → Prop) (h : HIn V) (name chan : String) (sig : Bool) (vars : Option (HIn V))
    (s : State V) (hs : Halves A s) : Halves A (addProcess cfg h name chan sig vars s).1 := by
  have e0 : tab (named sig name s) = tab s := by unfold named; split <;> rfl
  have hs' : Halves A (named sig name s) := hs.of_tab e0
  rcases addProcess_out cfg h name chan sig vars s with ⟨⟨e, he⟩, _⟩ | ⟨c, nc, hc, hn, hh, he⟩
  · rw [he]; exact hs
  · rw [he]
    cases ha : upd2 s.logkavg chan name [] with
    | error e => exact hs'
    | ok avg =>
      dsimp only
      cases hb : upd2 s.logkhalf chan name [] with
      | error e => exact hs'
      | ok half =>
        dsimp only
        have key : ∀ s' : State V, s'.logkhalf = half → Halves A s' := by
          intro s' e2
          refine ⟨fun c p m e h => ?_⟩
          rw [e2, at3_upd2_nil hb] at h
          split at h
          · cases h
          · exact hs.1 c p m e h
        cases hp : procNorm cfg h c.flow with
        | error e => exact key _ rfl
        | ok n =>
          dsimp only
          cases hw : procSumw2 h vars c.flow with
          | error e => exact key _ rfl
          | ok w =>
            dsimp only
            cases hw2 : upd2 s.sumw2 chan name w with
            | error e => exact key _ rfl
            | ok w2 => exact key _ rfl

theorem halves_step (cfg : Cfg V) (A : String → Prop) (op : Op V) (s : State V) (hs : Halves A s)
    (hA : ∀ b ∈ Spec.asks op, b.toCov = false → A b.name) : Halves A (step cfg op s).1 := by
  have key : ∀ {m : M V Unit}, Keeps tab m → Halves A (m s).1 := fun hm => hs.of_tab (hm.run s)
  cases op with
  | dataCov c => exact key ⟨fun _ => rfl⟩
  | write it => exact key (Keeps.bind (keeps_write _ (fun _ _ => rfl) ..) fun _ => Keeps.pure _)
  | pseudo h name c => exact key (keeps_addPseudo _ (fun _ _ _ => rfl) ..)
  | data h c vars => exact key (keeps_addData _ (fun _ _ _ => rfl) ..)
  | channel a n m f => exact (halves_addChannel A a n m f).run s hs
  | process hh name c sig vars => exact halves_addProcess cfg A hh name c sig vars s hs
  | syst x name proc c k m sy t d o =>
    refine (presH_addSystematic cfg A x name proc c k m sy t d o ?_).run s hs
    rintro rfl ⟨u, d, rfl⟩ rfl
    exact hA ⟨name, false, o⟩ (by simp [Spec.asks]) rfl
  | normSyst name procs c u t sy o =>
    exact (Pres.bind (Pres.raiseIf _ _) fun _ => Pres.bind (presH_normLoop cfg A name c t sy o
      (fun ht => hA ⟨name, t, o⟩ (by simp [Spec.asks]) ht) _ _) fun _ => presH_bookSystematic ..).run s hs

theorem halves_runOps (cfg : Cfg V) (A : String → Prop) (ops : List (Op V)) : ∀ s : State V, Halves A s →
    (∀ op ∈ ops, ∀ b ∈ Spec.asks op, b.toCov = false → A b.name) → Halves A (runOps cfg s ops) := by
  induction ops with
  | nil => exact fun s hs _ => hs
  | cons op ops ih =>
    intro s hs hA
    exact ih _ (halves_step cfg A op s hs (hA op (by simp))) fun o ho => hA o (by simp [ho])

/-- whatever has a half difference was asked for outside the covariance -/
theorem halves_run (cfg : Cfg V) (ops : List (Op V)) {c p m : String} {e : LogkE V} (h : Spec.at3 (run cfg ops).logkhalf c p m = some e) :
    ∃ b, Spec.asked ops b ∧ b.name = m ∧ b.toCov = false :=
  (halves_runOps cfg (fun m => ∃ b, Spec.asked ops b ∧ b.name = m ∧ b.toCov = false) ops {} ⟨by intro c p m e h; cases h⟩
    fun op ho b hb ht => ⟨b, ⟨op, ho, hb⟩, rfl, ht⟩).1 c p m e h

end Verif.Writer
