import Verif.Lemmas.Thin

/-! Lemmas on when `write` succeeds in sparse mode: the variations that are stored are those of the nuisances that are booked. -/

namespace Verif.Writer

open Verif.Logk M

set_option linter.unusedSectionVars false

variable {V : Type} [Field V] [LinearOrder V]

/-- the stored variations have names of `A`; a half difference comes with its average, except for `K`; every name is stored once -/
structure Entries (A : List String) (K : String → String → String → Prop) (s : State V) : Prop where
  named : ∀ c p m e, Spec.at3 s.logkavg c p m = some e → m ∈ A
  half : ∀ c p m e, Spec.at3 s.logkhalf c p m = some e → Spec.at3 s.logkavg c p m ≠ none ∨ K c p m
  ndAvg : ∀ c p d, Spec.at2 s.logkavg c p = some d → (Dict.keys d).Nodup
  ndHalf : ∀ c p d, Spec.at2 s.logkhalf c p = some d → (Dict.keys d).Nodup

theorem Entries.of_tab {A : List String} {K : String → String → String → Prop} {s s' : State V} (h : tab s' = tab s)
    (hs : Entries A K s) : Entries A K s' := by
  simp only [tab, Prod.mk.injEq] at h
  obtain ⟨_, h2, h3⟩ := h
  exact ⟨by rw [h2]; exact hs.1, by rw [h2, h3]; exact hs.2, by rw [h2]; exact hs.3, by rw [h3]; exact hs.4⟩

theorem Entries.mono {A : List String} {K K' : String → String → String → Prop} {s : State V} (hs : Entries A K s)
    (h : ∀ c p m, K c p m → K' c p m ∨ Spec.at3 s.logkavg c p m ≠ none) : Entries A K' s :=
  ⟨hs.1, fun c p m e he => (hs.half c p m e he).elim .inl fun hk => (h c p m hk).elim .inr .inl, hs.3, hs.4⟩

theorem upd3_at2 {ν : Type} {d d' : Dict String (Dict String (Dict String ν))} {a b c : String} {v : ν}
    (h : upd3 d a b c v = .ok d') (a' b' : String) (e : Dict String ν) (he : Spec.at2 d' a' b' = some e) :
    Spec.at2 d a' b' = some e ∨ ∃ i, Spec.at2 d a' b' = some i ∧ e = i.set c v := by
  unfold upd3 at h
  split at h
  · rename_i i hi
    unfold upd2 at h
    split at h
    · rename_i j hj
      cases h
      unfold Spec.at2 at he ⊢
      rw [Dict.get?_set] at he
      by_cases ha : a = a'
      · subst ha
        rw [if_pos rfl, Option.bind_some, Dict.get?_set] at he
        rw [hi]
        by_cases hb : b = b'
        · subst hb
          rw [if_pos rfl] at he
          cases he
          exact .inr ⟨j, hj, rfl⟩
        · rw [if_neg hb] at he
          exact .inl he
      · rw [if_neg ha] at he
        exact .inl he
    · cases h
  · cases h

theorem presE_bookLogk (cfg : Cfg V) (A : List String) (K : String → String → String → Prop) (half : Bool) (lk : LogkIn V)
    (chan name : String) (proc : Option String) (hA : name ∈ A) (hK : half = true → ∀ p, proc = some p → K chan p name) :
    Pres (Entries A K) (bookLogk cfg half lk chan proc name) := by
  refine ⟨fun s hs => ?_⟩
  unfold bookLogk
  rw [read_bind]
  cases proc with
  | none => exact hs
  | some q =>
    rw [lift_ok_bind]
    cases hnc : s.norm.get chan with
    | error e => exact hs
    | ok nc =>
      rw [lift_ok_bind]
      cases hn : nc.get q with
      | error e => exact hs
      | ok n =>
        rw [lift_ok_bind]
        cases he : bookedLogk cfg n lk with
        | error e => exact hs
        | ok e =>
          rw [lift_ok_bind]
          cases half with
          | true =>
            simp only [if_true]
            cases hd : upd3 s.logkhalf chan q name e with
            | error _ => exact hs
            | ok d =>
              refine ⟨hs.1, fun c p m e' h => ?_, hs.3, fun c p d' h => ?_⟩
              · have h' : Spec.at3 d c p m = some e' := h
                rw [upd3_at hd] at h'
                split at h'
                · rename_i hx
                  obtain ⟨rfl, rfl, rfl⟩ := hx
                  exact .inr (hK rfl _ rfl)
                · exact hs.half c p m e' h'
              · rcases upd3_at2 hd c p d' h with h' | ⟨i, h', rfl⟩
                · exact hs.ndHalf c p d' h'
                · exact Dict.nodup_keys_set _ _ _ (hs.ndHalf c p i h')
          | false =>
            simp only [Bool.false_eq_true, if_false]
            cases hd : upd3 s.logkavg chan q name e with
            | error _ => exact hs
            | ok d =>
              refine ⟨fun c p m e' h => ?_, fun c p m e' h => ?_, fun c p d' h => ?_, hs.4⟩
              · have h' : Spec.at3 d c p m = some e' := h
                rw [upd3_at hd] at h'
                split at h'
                · rename_i hx
                  obtain ⟨rfl, rfl, rfl⟩ := hx
                  exact hA
                · exact hs.named c p m e' h'
              · rcases hs.half c p m e' h with h' | h'
                · left
                  show Spec.at3 d c p m ≠ none
                  rw [upd3_at hd]
                  split
                  · simp
                  · exact h'
                · exact .inr h'
              · rcases upd3_at2 hd c p d' h with h' | ⟨i, h', rfl⟩
                · exact hs.ndAvg c p d' h'
                · exact Dict.nodup_keys_set _ _ _ (hs.ndAvg c p i h')

theorem presE_bookSystematic (A : List String) (K : String → String → String → Prop) (name : String) (toCov : Bool) (o : SystOpts) :
    Pres (Entries A K) (bookSystematic name toCov o : M V Unit) :=
  Pres.of_keeps (keepsTab_bookSystematic ..) fun _ _ h hs => hs.of_tab h

theorem presE_computeAsymSyst (cfg : Cfg V) (A : List String) (K : String → String → String → Prop) (up down : List V) (name : String)
    (proc : Option String) (chan : String) (symm : Symm) (toCov : Bool) (idx : Option (List Nat)) (o : SystOpts)
    (hA : ∀ n ∈ asymNames symm name ++ [avgName symm name], n ∈ A) (hK : ∀ p, proc = some p → K chan p (avgName symm name)) :
    Pres (Entries A K) (computeAsymSyst cfg up down name proc chan symm toCov idx o) := by
  unfold computeAsymSyst
  refine Pres.bind (Pres.lift _) fun avg => ?_
  cases symm with
  | conservative => exact Pres.pure _
  | average => exact Pres.pure _
  | linear | quadratic =>
    exact Pres.bind_lift fun _ h => Pres.bind (presE_bookLogk _ _ _ _ _ _ _ _ (hA _ (by simp [asymNames])) (by rintro ⟨⟩)) fun _ =>
      Pres.bind (presE_bookSystematic ..) fun _ => Pres.pure _
  | none =>
    refine Pres.bind (Pres.raiseIf _ _) fun _ => Pres.bind ⟨fun s hs => ?_⟩ fun _ => Pres.bind_lift fun _ h =>
      Pres.bind (presE_bookLogk _ _ _ _ _ _ _ _ (hA _ (by simp [avgName])) fun _ => hK) fun _ => Pres.pure _
    exact Entries.of_tab (s := s) rfl hs

theorem presE_normOne (cfg : Cfg V) (A : List String) (name chan : String) (toCov : Bool) (symm : Symm) (o : SystOpts)
    (p : String) (u : Unc V) (hA : name ∈ A) : Pres (Entries A fun _ _ _ => False) (normOne cfg name chan toCov symm o name p u) := by
  unfold normOne
  refine Pres.bind ⟨fun _ h => h⟩ fun s0 => Pres.bind (Pres.lift _) fun nc => Pres.bind (Pres.lift _) fun n => ?_
  dsimp only
  split
  · exact Pres.bind_lift fun _ h => Pres.bind (presE_bookLogk _ _ _ _ _ _ _ _ hA (by rintro ⟨⟩)) fun _ => Pres.pure _
  · refine Pres.bind_lift fun a ha => Pres.bind_lift fun b hb => ?_
    refine Pres.bind_post ?_ (fun r => r.2 = name) (fun s r h => ?_) fun r hr =>
      Pres.bind (presE_bookLogk _ _ _ _ _ _ _ _ (by rw [hr]; exact hA) (by rintro ⟨⟩)) fun _ => Pres.pure _
    · have hno : ∀ (half : Bool) (lk : LogkIn V) nm, Pres (Entries A fun _ _ _ => False) (bookLogk cfg half lk chan none nm) :=
        fun half lk nm => ⟨fun s hs => hs⟩
      unfold computeAsymSyst
      refine Pres.bind (Pres.lift _) fun avg => ?_
      cases symm with
      | conservative => exact Pres.pure _
      | average => exact Pres.pure _
      | linear | quadratic =>
        exact Pres.bind_lift fun _ h => Pres.bind (hno _ _ _) fun _ => Pres.bind (presE_bookSystematic ..) fun _ => Pres.pure _
      | none =>
        refine Pres.bind (Pres.raiseIf _ _) fun _ => Pres.bind ⟨fun s hs => ?_⟩ fun _ => Pres.bind_lift fun _ h =>
          Pres.bind (hno _ _ _) fun _ => Pres.pure _
        exact Entries.of_tab (s := s) rfl hs
    · have := computeAsymSyst_ok (Prod.ext rfl h)
      rw [this.1, avgName_of_nil (this.2.2.1 rfl)]
  · exact Pres.raise _

theorem presE_normLoop (cfg : Cfg V) (A : List String) (name chan : String) (toCov : Bool) (symm : Symm) (o : SystOpts)
    (hA : name ∈ A) (l : List (String × Unc V)) : ∀ v, v = name →
    Pres (Entries A fun _ _ _ => False) (normLoop cfg name chan toCov symm o v l) := by
  induction l with
  | nil => exact fun v _ => Pres.pure v
  | cons x l ih =>
    obtain ⟨p, u⟩ := x
    intro v hv
    subst hv
    exact Pres.bind_post (presE_normOne _ _ _ _ _ _ _ _ _ hA) (fun r => r = v)
      (fun s r h => normOne_ok (s' := (normOne cfg v chan toCov symm o v p u s).1) (by rw [← h]) rfl) fun r hr => ih r hr

theorem entries_addChannel (A : List String) (axes : List Axis) (name : Option String) (masked flow : Bool) :
    Pres (Entries A fun _ _ _ => False) (addChannel axes name masked flow : M V Unit) := by
  refine ⟨fun s hs => ?_⟩
  unfold addChannel
  rw [raiseIf_bind]
  split
  · exact hs
  rw [read_bind]
  set nm := name.getD s!"ch{s.channels.length}" with hnm
  clear_value nm
  refine ⟨fun c p m e h => ?_, fun c p m e h => ?_, fun c p d h => ?_, fun c p d h => ?_⟩
  · have h' : Spec.at3 (s.logkavg.set nm []) c p m = some e := h
    rw [at3_of_set_nil] at h'
    split at h'
    · cases h'
    · exact hs.named c p m e h'
  · have h' : Spec.at3 (s.logkhalf.set nm []) c p m = some e := h
    rw [at3_of_set_nil] at h'
    left
    show Spec.at3 (s.logkavg.set nm []) c p m ≠ none
    rw [at3_of_set_nil]
    split at h'
    · cases h'
    · rename_i hne
      rw [if_neg hne]
      exact (hs.half c p m e h').elim id False.elim
  · have h' : Spec.at2 (s.logkavg.set nm []) c p = some d := h
    rw [at2_of_set] at h'
    split at h'
    · cases h'
    · exact hs.ndAvg c p d h'
  · have h' : Spec.at2 (s.logkhalf.set nm []) c p = some d := h
    rw [at2_of_set] at h'
    split at h'
    · cases h'
    · exact hs.ndHalf c p d h'

theorem entries_addProcess (cfg : Cfg V) (A : List String) (h : HIn V) (name chan : String) (sig : Bool) (vars : Option (HIn V))
    (s : State V) (hs : Entries A (fun _ _ _ => False) s) :
    Entries A (fun _ _ _ => False) (addProcess cfg h name chan sig vars s).1 := by
  have e0 : tab (named sig name s) = tab s := by unfold named; split <;> rfl
  have hs' : Entries A (fun _ _ _ => False) (named sig name s) := hs.of_tab e0
  rcases addProcess_out cfg h name chan sig vars s with ⟨⟨e, he⟩, _⟩ | ⟨c, nc, hc, hn, hh, he⟩
  · rw [he]; exact hs
  · rw [he]
    cases ha : upd2 s.logkavg chan name [] with
    | error e => exact hs'
    | ok avg =>
      dsimp only
      cases hb : upd2 s.logkhalf chan name [] with
      | error e => exact hs'
      | ok half =>
        dsimp only
        have key : ∀ s' : State V, s'.logkavg = avg → s'.logkhalf = half → Entries A (fun _ _ _ => False) s' := by
          intro s' e1 e2
          refine ⟨fun c p m e h => ?_, fun c p m e h => ?_, fun c p d h => ?_, fun c p d h => ?_⟩
          · rw [e1, at3_upd2_nil ha] at h
            split at h
            · cases h
            · exact hs.named c p m e h
          · rw [e2, at3_upd2_nil hb] at h
            left
            rw [e1, at3_upd2_nil ha]
            split at h
            · cases h
            · rename_i hne
              rw [if_neg hne]
              exact (hs.half c p m e h).elim id False.elim
          · rw [e1, upd2_at ha] at h
            split at h
            · cases h; exact List.nodup_nil
            · exact hs.ndAvg c p d h
          · rw [e2, upd2_at hb] at h
            split at h
            · cases h; exact List.nodup_nil
            · exact hs.ndHalf c p d h
        cases hp : procNorm cfg h c.flow with
        | error e => exact key _ rfl rfl
        | ok n =>
          dsimp only
          cases hw : procSumw2 h vars c.flow with
          | error e => exact key _ rfl rfl
          | ok w =>
            dsimp only
            cases hw2 : upd2 s.sumw2 chan name w with
            | error e => exact key _ rfl rfl
            | ok w2 => exact key _ rfl rfl

/-- a systematic that is accepted leaves no half difference without its average -/
theorem entries_addSystematic (cfg : Cfg V) (A : List String) (x : SystIn V) (name proc chan : String) (kfac : V) (mirror : Bool)
    (symm : Symm) (toCov asDiff : Bool) (o : SystOpts) (s s' : State V) (hs : Entries A (fun _ _ _ => False) s)
    (hA : ∀ n ∈ systNames x symm name, n ∈ A)
    (h : addSystematic cfg x name proc chan kfac mirror symm toCov asDiff o s = (s', .ok ())) :
    Entries A (fun _ _ _ => False) s' := by
  unfold addSystematic at h
  rw [read_bind] at h
  obtain ⟨nc, _, h⟩ := lift_bind_ok h
  obtain ⟨n, _, h⟩ := lift_bind_ok h
  obtain ⟨c, _, h⟩ := lift_bind_ok h
  have fin : ∀ {lk : LogkIn V} {nm : String} {s1 s2 : State V} {u : Unit}, Entries A (fun c p m => c = chan ∧ p = proc ∧ m = nm) s1 →
      nm ∈ A → bookLogk cfg false lk chan (some proc) nm s1 = (s2, .ok u) → Entries A (fun _ _ _ => False) s2 := by
    intro lk nm s1 s2 u h1 hn h2
    have h3 := (presE_bookLogk cfg A (fun c p m => c = chan ∧ p = proc ∧ m = nm) false lk chan nm (some proc) hn (by rintro ⟨⟩)).run s1 h1
    rw [h2] at h3
    obtain ⟨_, e, _, _, _, _, h4⟩ := bookLogk_ok h2
    refine h3.mono ?_
    rintro c p m ⟨rfl, rfl, rfl⟩
    right
    rw [h4, if_pos ⟨rfl, rfl, rfl⟩]
    simp
  have last : ∀ {nm : String} {s1 s2 : State V} {u : Unit}, Entries A (fun _ _ _ => False) s1 →
      bookSystematic nm toCov o s1 = (s2, .ok u) → Entries A (fun _ _ _ => False) s2 := by
    intro nm s1 s2 u h1 h2
    have := (presE_bookSystematic A (fun _ _ _ => False) nm toCov o).run s1 h1
    rw [h2] at this; exact this
  cases x with
  | single hh =>
    obtain ⟨s0, _, h0, h⟩ := bind_ok h
    have e0 : s0 = s := by
      unfold raiseIf at h0
      split at h0 <;> cases h0
      rfl
    subst e0
    obtain ⟨_, _, h⟩ := lift_bind_ok h
    obtain ⟨_, _, h⟩ := lift_bind_ok h
    obtain ⟨_, _, h⟩ := lift_bind_ok h
    obtain ⟨_, _, h⟩ := lift_bind_ok h
    obtain ⟨s1, _, h1, h⟩ := bind_ok h
    exact last (fin (hs.mono fun _ _ _ => False.elim) (hA _ (by simp [systNames])) h1) h
  | pair hu hw =>
    obtain ⟨_, _, h⟩ := lift_bind_ok h
    obtain ⟨_, _, h⟩ := lift_bind_ok h
    obtain ⟨_, _, h⟩ := lift_bind_ok h
    obtain ⟨_, _, h⟩ := lift_bind_ok h
    obtain ⟨_, _, h⟩ := lift_bind_ok h
    obtain ⟨_, _, h⟩ := lift_bind_ok h
    obtain ⟨up, _, h⟩ := lift_bind_ok h
    obtain ⟨dn, _, h⟩ := lift_bind_ok h
    obtain ⟨s1, r, h1, h⟩ := bind_ok h
    obtain ⟨s2, _, h2, h⟩ := bind_ok h
    have hr := (computeAsymSyst_ok h1).1
    have h3 := (presE_computeAsymSyst cfg A (fun c p m => c = chan ∧ p = proc ∧ m = avgName symm name) up (dn.map fun v => -v) name
      (some proc) chan symm toCov n.idx o hA (fun p hp => ⟨rfl, (Option.some.inj hp).symm, rfl⟩)).run s (hs.mono fun _ _ _ => False.elim)
    rw [h1] at h3
    rw [hr] at h2
    exact last (fin h3 (hA _ (by simp [systNames])) h2) h

theorem entries_step (cfg : Cfg V) (A : List String) (op : Op V) (s : State V) (hs : Entries A (fun _ _ _ => False) s)
    (hA : ∀ b ∈ Spec.asks op, b.name ∈ A) (h : (step cfg op s).2 = .ok ()) : Entries A (fun _ _ _ => False) (step cfg op s).1 := by
  have key : ∀ {m : M V Unit}, Keeps tab m → Entries A (fun _ _ _ => False) (m s).1 := fun hm => hs.of_tab (hm.run s)
  cases op with
  | dataCov c => exact key ⟨fun _ => rfl⟩
  | write it => exact key (Keeps.bind (keeps_write _ (fun _ _ => rfl) ..) fun _ => Keeps.pure _)
  | pseudo h name c => exact key (keeps_addPseudo _ (fun _ _ _ => rfl) ..)
  | data h c vars => exact key (keeps_addData _ (fun _ _ _ => rfl) ..)
  | channel a n m f => exact (entries_addChannel A a n m f).run s hs
  | process hh name c sig vars => exact entries_addProcess cfg A hh name c sig vars s hs
  | syst x name proc c k m sy t d o =>
    refine entries_addSystematic cfg A x name proc c k m sy t d o s _ hs ?_ (Prod.ext rfl h)
    intro n hn
    cases x with
    | single _ =>
      simp only [systNames, List.mem_singleton] at hn
      exact hn ▸ hA ⟨name, t, o⟩ (by simp [Spec.asks])
    | pair _ _ =>
      cases sy <;> simp [systNames, asymNames, avgName] at hn <;> simp [Spec.asks] at hA
      all_goals first
        | (rw [hn]; exact hA)
        | (rcases hn with rfl | rfl; exact hA.1; exact hA.2)
  | normSyst name procs c u t sy o =>
    exact (Pres.bind (Pres.raiseIf _ _) fun _ => Pres.bind (presE_normLoop cfg A name c t sy o (hA ⟨name, t, o⟩ (by simp [Spec.asks])) _ _ rfl) fun _ =>
      presE_bookSystematic ..).run s hs

theorem entries_runOps (cfg : Cfg V) (A : List String) (ops : List (Op V)) : ∀ s : State V, Entries A (fun _ _ _ => False) s →
    (∀ op ∈ ops, ∀ b ∈ Spec.asks op, b.name ∈ A) → (∀ l op r, ops = l ++ op :: r → (step cfg op (runOps cfg s l)).2 = .ok ()) →
    Entries A (fun _ _ _ => False) (runOps cfg s ops) := by
  induction ops with
  | nil => exact fun s hs _ _ => hs
  | cons op ops ih =>
    intro s hs hA hok
    refine ih _ (entries_step cfg A op s hs (hA op (by simp)) (hok [] op ops rfl)) (fun o ho => hA o (by simp [ho])) ?_
    rintro l op' r rfl
    exact hok (op :: l) op' r rfl

/-! ### When the assembly of the sparse tensors succeeds -/

/-- what is needed of a cell -/
structure SparseCell (N nproc : Nat) (systs : List String) (symmetric : Bool) (c : Cell V) : Prop where
  norm : ∃ l, c.norm = .dense l ∧ c.start + l.length ≤ N
  iproc : c.iproc < nproc
  avg : ∀ m e, c.avg.get? m = some e → ∃ l, e = .sparse l ∧ fits c.norm l ∧ ∀ x ∈ l, ∀ d, c.norm = .dense d → x.1 < d.length
  half : ∀ m e, c.half.get? m = some e → ∃ l, e = .sparse l ∧ fits c.norm l ∧ ∀ x ∈ l, ∀ d, c.norm = .dense d → x.1 < d.length
  ndAvg : (Dict.keys c.avg).Nodup
  ndHalf : (Dict.keys c.half).Nodup
  sub : ∀ m ∈ Dict.keys c.avg, m ∈ systs
  subHalf : ∀ m ∈ Dict.keys c.half, m ∈ Dict.keys c.avg
  sym : symmetric = true → c.half = []

/-- summing over the entries of a dictionary, in the order of the names -/
theorem sum_get? {ν : Type} (f : ν → Nat) {names : List String} (hn : names.Nodup) : ∀ {d : Dict String ν}, (Dict.keys d).Nodup →
    (∀ m ∈ Dict.keys d, m ∈ names) →
    (names.map fun m => (Dict.get? d m).elim 0 f).sum = (d.map fun e => f e.2).sum := by
  intro d
  induction d with
  | nil =>
    intro _ _
    rw [List.map_nil, List.sum_nil, List.sum_eq_zero_iff]
    intro x hx
    obtain ⟨m, _, rfl⟩ := List.mem_map.1 hx
    rfl
  | cons e d ih =>
    intro hd hsub
    obtain ⟨k, v⟩ := e
    have hd' : k ∉ Dict.keys d ∧ (Dict.keys d).Nodup := List.nodup_cons.1 hd
    have hk : Dict.get? d k = none := (Dict.has_eq_false_iff _ _).1 (by
      rw [← Bool.not_eq_true, ← Dict.mem_keys_iff_has]; exact hd'.1)
    rw [List.map_cons, List.sum_cons, ← ih hd'.2 fun m hm => hsub m (List.mem_cons_of_mem _ hm)]
    have : ∀ m, (Dict.get? ((k, v) :: d) m).elim 0 f =
        (if m = k then f v else 0) + (Dict.get? d m).elim 0 f := by
      intro m
      by_cases hm : m = k
      · subst hm
        rw [if_pos rfl, hk, show Dict.get? ((m, v) :: d) m = some v by simp [Dict.get?]]
        rfl
      · rw [if_neg hm, show Dict.get? ((k, v) :: d) m = Dict.get? d m by
          simp only [Dict.get?]
          rw [if_neg fun e => hm e.symm]]
        rw [Nat.zero_add]
    rw [List.map_congr_left fun m _ => this m, List.sum_map_add]
    congr 1
    have hmem : k ∈ names := hsub k (by simp [Dict.keys])
    clear ih hsub this
    induction names with
    | nil => cases hmem
    | cons n names ih =>
      rw [List.map_cons, List.sum_cons]
      obtain ⟨h1, h2⟩ := List.nodup_cons.1 hn
      by_cases hnk : n = k
      · subst hnk
        rw [if_pos rfl, List.sum_eq_zero_iff.2, Nat.add_zero]
        intro x hx
        obtain ⟨m, hm, rfl⟩ := List.mem_map.1 hx
        rw [if_neg]
        rintro rfl
        exact h1 hm
      · rw [if_neg hnk, Nat.zero_add]
        exact ih h2 ((List.mem_cons.1 hmem).resolve_left fun e => hnk e.symm)

/-- the number of values stored for a cell -/
theorem tasks_count {N nproc : Nat} {systs : List String} {symmetric : Bool} {c : Cell V} (hn : systs.Nodup)
    (hc : SparseCell N nproc systs symmetric c) :
    ((tasksOfCell systs c).map fun t => t.vals.ents.length).sum =
      (c.avg.map fun e => e.2.count).sum + (c.half.map fun e => e.2.count).sum := by
  have hz : ∀ (ms : List String) (k : Nat), ((ms.zipIdx k).flatMap fun e => match c.avg.get? e.1 with
      | none => ([] : List Nat)
      | some v => v.ents.length :: match c.half.get? e.1 with
        | none => []
        | some hv => [hv.ents.length]).sum =
      (ms.map fun m => (c.avg.get? m).elim 0 fun v => v.ents.length).sum +
      (ms.map fun m => (c.half.get? m).elim 0 fun v => v.ents.length).sum := by
    intro ms
    induction ms with
    | nil => intro k; rfl
    | cons m ms ih =>
      intro k
      rw [List.zipIdx_cons, List.flatMap_cons, List.sum_append, ih, List.map_cons, List.sum_cons, List.map_cons, List.sum_cons]
      dsimp only
      cases ha : c.avg.get? m with
      | none =>
        have : c.half.get? m = none := by
          rw [← Dict.has_eq_false_iff, ← Bool.not_eq_true, ← Dict.mem_keys_iff_has]
          intro h
          have := hc.subHalf m h
          rw [Dict.mem_keys_iff_has] at this
          rw [(Dict.has_eq_false_iff _ _).2 ha] at this
          cases this
        rw [this]
        simp
      | some v => cases hh : c.half.get? m with
        | none => simp; omega
        | some w => simp; omega
  have hmap : ((tasksOfCell systs c).map fun t => t.vals.ents.length) = systs.zipIdx.flatMap fun e => match c.avg.get? e.1 with
      | none => ([] : List Nat)
      | some v => v.ents.length :: match c.half.get? e.1 with
        | none => []
        | some hv => [hv.ents.length] := by
    unfold tasksOfCell
    rw [List.map_flatMap]
    congr 1
    funext e
    cases c.avg.get? e.1 with
    | none => rfl
    | some v => cases c.half.get? e.1 <;> rfl
  have hcount : ∀ {d : Dict String (LogkE V)}, (Dict.keys d).Nodup → (∀ m e, d.get? m = some e → ∃ l, e = .sparse l) →
      (d.map fun e => e.2.ents.length) = d.map fun e => e.2.count := by
    intro d hnd h
    refine List.map_congr_left fun e he => ?_
    obtain ⟨l, hl⟩ := h e.1 e.2 (Dict.get?_of_mem _ _ _ hnd he)
    rw [hl]; rfl
  rw [hmap, hz, sum_get? (fun v : LogkE V => v.ents.length) hn hc.ndAvg hc.sub,
    sum_get? (fun v : LogkE V => v.ents.length) hn hc.ndHalf fun m hm => hc.sub m (hc.subHalf m hm),
    hcount hc.ndAvg fun m e h => (hc.avg m e h).imp fun _ h => h.1, hcount hc.ndHalf fun m e h => (hc.half m e h).imp fun _ h => h.1]

theorem mapM_total {α β : Type} {f : α → Res β} {l : List α} (h : ∀ a ∈ l, ∃ b, f a = .ok b) : ∃ r, l.mapM f = .ok r := by
  induction l with
  | nil => exact ⟨[], rfl⟩
  | cons a l ih =>
    obtain ⟨b, hb⟩ := h a (by simp)
    obtain ⟨r, hr⟩ := ih fun x hx => h x (by simp [hx])
    exact ⟨b :: r, by rw [List.mapM_cons, hb]; show (List.mapM f l >>= fun bs => pure (b :: bs)) = _; rw [hr]; rfl⟩

theorem fillSparse_ok {N nproc : Nat} {systs : List String} {symmetric : Bool} {cells : List (Cell V)} (hn : systs.Nodup)
    (hc : ∀ c ∈ cells, SparseCell N nproc systs symmetric c) : ∃ out, fillSparse N nproc systs symmetric cells = .ok out := by
  have htask : ∀ c ∈ cells, ∀ t ∈ tasksOfCell systs c, ∃ l, t.vals = .sparse l ∧ fits c.norm l ∧
      (∀ x ∈ l, ∀ d, c.norm = .dense d → x.1 < d.length) ∧ t.cell = c ∧ t.isyst < systs.length ∧ (symmetric = true → t.k = 0) ∧ t.k ≤ 1 := by
    intro c hcc t ht
    obtain ⟨m, v, hm, hv, he, hk⟩ := mem_tasks.1 ht
    have hlt := (List.getElem?_eq_some_iff.1 hm).1
    rcases hk with ⟨hk, hvv⟩ | ⟨hk, hvv⟩
    · obtain ⟨l, h1, h2, h3⟩ := (hc c hcc).avg m v hv
      exact ⟨l, hvv.trans h1, h2, h3, he, hlt, fun _ => hk, by omega⟩
    · obtain ⟨l, h1, h2, h3⟩ := (hc c hcc).half m _ hvv
      refine ⟨l, h1, h2, h3, he, hlt, fun hs => ?_, by omega⟩
      rw [(hc c hcc).sym hs] at hvv
      cases hvv
  have hok : ∀ c ∈ cells, CellOk systs c := fun c hcc => ⟨by
    obtain ⟨l, hl, _⟩ := (hc c hcc).norm
    rw [hl]; trivial, fun t ht => (htask c hcc t ht).imp fun _ h => ⟨h.1, h.2.1⟩⟩
  -- every cell is added, with the number of values that was counted
  have hloop : ∀ (l : List (Cell V)), (∀ c ∈ l, c ∈ cells) → ∀ acc : Acc V, ∃ acc', loop (addCell systs) acc l = .ok acc' ∧
      acc'.logk.length = acc.logk.length + precount l := by
    intro l
    induction l with
    | nil => exact fun _ acc => ⟨acc, rfl, rfl⟩
    | cons c l ih =>
      intro hl acc
      have hcc := hl c (by simp)
      obtain ⟨lk, hlk⟩ : ∃ lk, loop (addTask systs.length acc.norm.length) acc.logk (tasksOfCell systs c) = .ok lk := by
        refine loop_ok (fun b t ht => ?_) _
        obtain ⟨l, h1, h2, h3, h4, _⟩ := htask c hcc t ht
        unfold addTask
        rw [h1]
        obtain ⟨d, hd, _⟩ := (hc c hcc).norm
        obtain ⟨r, hr⟩ := mapM_total (l := l) (f := fun e : Nat × V => (t.cell.norm.pos acc.norm.length e.1).map fun p =>
          (p, t.k * systs.length + t.isyst, e.2)) fun e he => by
            rw [h4, hd]
            unfold Norm.pos
            dsimp only
            rw [if_pos (h3 e he d hd)]
            exact ⟨_, rfl⟩
        refine ⟨b ++ r, ?_⟩
        have hr' : (List.mapM (fun e : Nat × V => (t.cell.norm.pos acc.norm.length e.1).map fun p =>
          (p, t.k * systs.length + t.isyst, e.2)) l >>= fun out => (.ok (b ++ out) : Res _)) = .ok (b ++ r) := by rw [hr]; rfl
        exact hr'
      have hadd : addCell systs acc c = .ok ⟨acc.norm ++ c.norm.entries.map (fun e => (c.start + e.1, c.iproc, e.2)), lk⟩ := by
        unfold addCell
        dsimp only
        rw [hlk]
      obtain ⟨acc', h1, h2⟩ := ih (fun x hx => hl x (by simp [hx]))
        ⟨acc.norm ++ c.norm.entries.map (fun e => (c.start + e.1, c.iproc, e.2)), lk⟩
      refine ⟨acc', by unfold loop; rw [hadd]; exact h1, ?_⟩
      rw [h2]
      have hlen : lk.length = acc.logk.length + ((c.avg.map fun e => e.2.count).sum + (c.half.map fun e => e.2.count).sum) := by
        rw [(addTasks_ok hlk).1, List.length_append, ← tasks_count hn (hc c hcc), List.length_flatMap]
        congr 2
        refine List.map_congr_left fun t _ => ?_
        rw [List.length_map]
      show lk.length + precount l = acc.logk.length + precount (c :: l)
      unfold precount
      rw [List.map_cons, List.sum_cons, hlen]
      omega
  obtain ⟨acc, hacc, hlen⟩ := hloop cells (fun _ h => h) {}
  have hI := asmInv_loop (asmInv_nil systs) hok hacc
  rw [List.nil_append] at hI
  have hlen' : acc.logk.length = precount cells := by rw [hlen]; exact Nat.zero_add _
  have hrange : (acc.norm.any fun e => decide (N ≤ e.1) || decide (nproc ≤ e.2.1)) = false := by
    rw [List.any_eq_false]
    intro e he
    rw [hI.norm] at he
    obtain ⟨c, hcc, he⟩ := List.mem_flatMap.1 he
    obtain ⟨⟨i, v⟩, hx, rfl⟩ := List.mem_map.1 he
    obtain ⟨l, hl, hb⟩ := (hc c hcc).norm
    rw [hl] at hx
    have := (List.getElem?_eq_some_iff.1 (mem_nonzeros.1 hx).1).1
    have h2 := (hc c hcc).iproc
    simp only [Bool.or_eq_true, decide_eq_true_eq, not_or, not_le]
    omega
  unfold fillSparse
  rw [hacc]
  dsimp only
  unfold canonicalise
  rw [if_neg (by simpa using hlen'), if_neg (by rw [hrange]; simp)]
  dsimp only
  rw [if_neg]
  · exact ⟨_, rfl⟩
  rw [Bool.not_eq_true, List.any_eq_false]
  intro e he
  obtain ⟨⟨p, col, v⟩, hm, rfl⟩ := List.mem_map.1 he
  obtain ⟨c, hcc, t, ht, i, x, _, hcol, hp, _⟩ := hI.sound p col v hm
  obtain ⟨l, _, _, _, _, hlt, hk0, hk1⟩ := htask c hcc t ht
  have hpl := (List.getElem?_eq_some_iff.1 hp).1
  have h1 : (argsort (acc.norm.map fun e => e.1 * nproc + e.2.1)).length = acc.norm.length := by
    rw [argsort_length, List.length_map]
  have h2 := argsort_perm (argsort (acc.norm.map fun e => e.1 * nproc + e.2.1))
  rw [h1] at h2
  have h3 : (argsort (argsort (acc.norm.map fun e => e.1 * nproc + e.2.1))).getD p 0 < acc.norm.length := by
    rw [List.getD_eq_getElem?_getD]
    cases hg : (argsort (argsort (acc.norm.map fun e => e.1 * nproc + e.2.1)))[p]? with
    | none => exact Nat.lt_of_le_of_lt (Nat.zero_le _) hpl
    | some r => exact List.mem_range.1 (h2.mem_iff.1 (List.mem_of_getElem? hg))
  have h4 : (gather (0, 0, 0) acc.norm (argsort (acc.norm.map fun e => e.1 * nproc + e.2.1))).length = acc.norm.length := by
    unfold gather
    rw [List.length_map, h1]
  have h5 : col < if symmetric = true then systs.length else 2 * systs.length := by
    rw [hcol]
    unfold LogkTask.col
    cases hs : symmetric with
    | true => rw [hk0 hs, if_pos rfl]; omega
    | false =>
      rw [if_neg (by simp)]
      rcases Nat.le_one_iff_eq_zero_or_eq_one.1 hk1 with h | h <;> rw [h] <;> omega
  simp only [Bool.or_eq_true, decide_eq_true_eq, not_or, not_le]
  rw [h4]
  exact ⟨h3, h5⟩

end Verif.Writer
