import Verif.Lemmas.Untouched

/-! Everything stored in the writer comes from a call: channels, data and templates. -/

namespace Verif.Writer

open Verif.Logk M

set_option linter.unusedSectionVars false

variable {V : Type} [Field V] [LinearOrder V]

theorem obs_step {cfg : Cfg V} (op : Op V) (s : State V) {chan : String} {l : List (FVal V)}
    (h : (step cfg op s).1.dataObs.get? chan = some l) :
    s.dataObs.get? chan = some l ∨ ∃ h v, op = .data h chan v ∧ l = h.flatVals false := by
  have key : ∀ {x : M V Unit}, Keeps State.dataObs x → (x s).1.dataObs.get? chan = some l → s.dataObs.get? chan = some l :=
    fun hx e => by rw [hx.run s] at e; exact e
  have kc : ∀ {x : M V Unit}, Keeps core x → Keeps State.dataObs x := fun hx =>
    keeps_of_core hx _ fun _ _ e => congrArg Core.dataObs e
  cases op with
  | dataCov c => exact .inl (key ⟨fun _ => rfl⟩ h)
  | write it => exact .inl (key (Keeps.bind (keeps_write _ (fun _ _ => rfl) ..) fun _ => Keeps.pure _) h)
  | pseudo h' name c => exact .inl (key (keeps_addPseudo _ (fun _ _ _ => rfl) ..) h)
  | channel a n m f => exact .inl (key (keeps_addChannel _ (fun _ _ _ _ _ _ _ => rfl) ..) h)
  | process h' name c sig vars => exact .inl (key (keeps_addProcess _ (fun _ _ _ _ _ _ _ => rfl) ..) h)
  | syst x name p c k mi sy t d o => exact .inl (key (kc (keeps_addSystematic ..)) h)
  | normSyst name procs c u t sy o => exact .inl (key (kc (keeps_addNormSystematic ..)) h)
  | data h' c vars =>
    have hs : ∀ d : Dict String (List (FVal V)), d = s.dataObs.set c (h'.flatVals false) → d.get? chan = some l →
        s.dataObs.get? chan = some l ∨ ∃ h v, Op.data h' c vars = .data h chan v ∧ l = h.flatVals false := by
      rintro d rfl e
      rw [Dict.get?_set] at e
      by_cases hc : c = chan
      · subst hc
        rw [if_pos rfl] at e
        exact .inr ⟨h', vars, rfl, (Option.some.inj e).symm⟩
      · rw [if_neg hc] at e
        exact .inl e
    simp only [step] at h
    rcases addData_cases cfg h' c vars s with ⟨e, _, he⟩ | ⟨_, _, he⟩ | ⟨_, _, ⟨e, _, he⟩ | ⟨v, _, he⟩⟩
    · rw [he] at h; exact .inl h
    · rw [he] at h; exact .inl h
    · rw [he] at h; exact hs _ rfl h
    · rw [he] at h; exact hs _ rfl h

theorem obs_origin {cfg : Cfg V} (ops : List (Op V)) : ∀ (s : State V) {chan : String} {l : List (FVal V)},
    (runOps cfg s ops).dataObs.get? chan = some l →
    s.dataObs.get? chan = some l ∨ ∃ h v, Op.data h chan v ∈ ops ∧ l = h.flatVals false := by
  induction ops with
  | nil => exact fun s _ _ h => .inl h
  | cons op ops ih =>
    intro s chan l h
    rcases ih _ h with h | ⟨h', v, h1, h2⟩
    · rcases obs_step op s h with h | ⟨h', v, rfl, h2⟩
      · exact .inl h
      · exact .inr ⟨h', v, List.mem_cons_self, h2⟩
    · exact .inr ⟨h', v, List.mem_cons_of_mem _ h1, h2⟩

theorem norm_step_origin {cfg : Cfg V} (op : Op V) (s : State V) {chan proc : String} {n : Norm V}
    (h : Spec.at2 (step cfg op s).1.norm chan proc = some n) :
    (∃ n, Spec.at2 s.norm chan proc = some n) ∨ ∃ h sig v, op = .process h proc chan sig v := by
  have key : ∀ {x : M V Unit}, Keeps State.norm x → Spec.at2 (x s).1.norm chan proc = some n → ∃ n, Spec.at2 s.norm chan proc = some n :=
    fun hx e => by rw [hx.run s] at e; exact ⟨n, e⟩
  have kc : ∀ {x : M V Unit}, Keeps core x → Keeps State.norm x := fun hx =>
    keeps_of_core hx _ fun _ _ e => congrArg Core.norm e
  cases op with
  | dataCov c => exact .inl (key ⟨fun _ => rfl⟩ h)
  | write it => exact .inl (key (Keeps.bind (keeps_write _ (fun _ _ => rfl) ..) fun _ => Keeps.pure _) h)
  | pseudo h' name c => exact .inl (key (keeps_addPseudo _ (fun _ _ _ => rfl) ..) h)
  | data h' c vars => exact .inl (key (keeps_addData _ (fun _ _ _ => rfl) ..) h)
  | syst x name p c k mi sy t d o => exact .inl (key (kc (keeps_addSystematic ..)) h)
  | normSyst name procs c u t sy o => exact .inl (key (kc (keeps_addNormSystematic ..)) h)
  | channel axes nm m f =>
    simp only [step, addChannel, raiseIf_bind] at h
    split at h
    · exact .inl ⟨n, h⟩
    · rw [read_bind] at h
      simp only [M.modify] at h
      unfold Spec.at2 at h ⊢
      rw [Dict.get?_set] at h
      split at h
      · cases h
      · exact .inl ⟨n, h⟩
  | process h' nm c sig vars =>
    simp only [step] at h
    rcases addProcess_cases cfg h' nm c sig vars s with ⟨s', e, e1, _⟩ | ⟨ch, nc, wc, n', w, _, hn, _, _, _, _, e1, _⟩
    · rw [e, e1] at h; exact .inl ⟨n, h⟩
    · rw [e1] at h
      unfold Spec.at2 at h ⊢
      rw [Dict.get?_set] at h
      split at h
      · rename_i hc
        subst hc
        rw [Option.bind_some, Dict.get?_set] at h
        split at h
        · rename_i hp
          subst hp
          exact .inr ⟨h', sig, vars, rfl⟩
        · rw [hn]; exact .inl ⟨n, h⟩
      · exact .inl ⟨n, h⟩

theorem norm_origin {cfg : Cfg V} (ops : List (Op V)) : ∀ (s : State V) {chan proc : String} {n : Norm V},
    Spec.at2 (runOps cfg s ops).norm chan proc = some n →
    (∃ n, Spec.at2 s.norm chan proc = some n) ∨ ∃ h sig v, Op.process h proc chan sig v ∈ ops := by
  induction ops with
  | nil => exact fun s _ _ n h => .inl ⟨n, h⟩
  | cons op ops ih =>
    intro s chan proc n h
    rcases ih _ h with ⟨n', h⟩ | ⟨h', sg, v, h1⟩
    · rcases norm_step_origin op s h with h | ⟨h', sg, v, rfl⟩
      · exact .inl h
      · exact .inr ⟨h', sg, v, List.mem_cons_self⟩
    · exact .inr ⟨h', sg, v, List.mem_cons_of_mem _ h1⟩

/-- the channel a call registers; `none` as name stands for a generated one -/
theorem channel_step_origin {cfg : Cfg V} (op : Op V) (s : State V) (hl : LayInv s)
    (hf : ∀ chan, Spec.addsChannel s chan op → s.channels.has chan = false) {chan : String} {c : Chan}
    (h : (step cfg op s).1.channels.get? chan = some c) :
    s.channels.get? chan = some c ∨ op = .channel c.axes (some chan) c.masked c.flow ∨ ∃ a m f, op = .channel a none m f := by
  have key : ∀ {x : M V Unit}, Keeps State.channels x → (x s).1.channels.get? chan = some c → s.channels.get? chan = some c :=
    fun hx e => by rw [hx.run s] at e; exact e
  have kc : ∀ {x : M V Unit}, Keeps core x → Keeps State.channels x := fun hx =>
    keeps_of_core hx _ fun _ _ e => congrArg Core.channels e
  cases op with
  | dataCov c => exact .inl (key ⟨fun _ => rfl⟩ h)
  | write it => exact .inl (key (Keeps.bind (keeps_write _ (fun _ _ => rfl) ..) fun _ => Keeps.pure _) h)
  | pseudo h' name c => exact .inl (key (keeps_addPseudo _ (fun _ _ _ => rfl) ..) h)
  | data h' c vars => exact .inl (key (keeps_addData _ (fun _ _ _ => rfl) ..) h)
  | process h' name c sig vars => exact .inl (key (keeps_addProcess _ (fun _ _ _ _ _ _ _ => rfl) ..) h)
  | syst x name p c k mi sy t d o => exact .inl (key (kc (keeps_addSystematic ..)) h)
  | normSyst name procs c u t sy o => exact .inl (key (kc (keeps_addNormSystematic ..)) h)
  | channel axes name ma f =>
    cases name with
    | none => exact .inr (.inr ⟨_, _, _, rfl⟩)
    | some nm =>
      have hff : s.channels.has nm = false := hf _ rfl
      simp only [step] at h
      unfold addChannel at h
      rw [raiseIf_bind] at h
      split at h
      · exact .inl h
      rw [read_bind] at h
      have h' : (insertChannel s.channels nm ⟨axes, ma, f⟩).get? chan = some c := h
      rw [insertChannel_get hff hl.nodup] at h'
      split at h'
      · rename_i e
        subst e
        cases h'
        exact .inr (.inl rfl)
      · exact .inl h'

theorem channel_origin {cfg : Cfg V} (ops : List (Op V)) : ∀ (s : State V), LayInv s → Spec.freshNames cfg s ops →
    (∀ a m f, Op.channel a none m f ∉ ops) → ∀ {chan c}, (runOps cfg s ops).channels.get? chan = some c →
    s.channels.get? chan = some c ∨ Op.channel c.axes (some chan) c.masked c.flow ∈ ops := by
  induction ops with
  | nil => exact fun s _ _ _ _ _ h => .inl h
  | cons op ops ih =>
    intro s hl hf hn chan c h
    rcases ih _ (layInv_step cfg op s hl hf.1) hf.2 (fun a m f hm => hn a m f (List.mem_cons_of_mem _ hm)) h with h | h
    · rcases channel_step_origin op s hl hf.1 h with h | rfl | ⟨a, m, f, rfl⟩
      · exact .inl h
      · exact .inr List.mem_cons_self
      · exact absurd List.mem_cons_self (hn a m f)
    · exact .inr (List.mem_cons_of_mem _ h)

/-- an accepted `add_channel` registers the channel -/
theorem channel_added {cfg : Cfg V} (s : State V) (hl : LayInv s) {axes : List Axis} {nm : String} {m f : Bool}
    (hf : ∀ chan, Spec.addsChannel s chan (.channel axes (some nm) m f) → s.channels.has chan = false)
    (hok : (step cfg (.channel axes (some nm) m f) s).2 = .ok ()) :
    (step cfg (.channel axes (some nm) m f) s).1.channels.get? nm = some ⟨axes, m, f⟩ := by
  have hff : s.channels.has nm = false := hf _ rfl
  simp only [step] at hok ⊢
  unfold addChannel at hok ⊢
  rw [raiseIf_bind] at hok ⊢
  split at hok
  · cases hok
  rename_i hc
  rw [if_neg hc, read_bind]
  show (insertChannel s.channels nm ⟨axes, m, f⟩).get? nm = _
  rw [insertChannel_get hff hl.nodup, if_pos rfl]

/-! ### Norm uncertainties given as numbers store no half difference -/

theorem keeps_half_bookLogk {cfg : Cfg V} (lk : LogkIn V) (c : String) (p : Option String) (nm : String) :
    Keeps (fun s : State V => s.logkhalf) (bookLogk cfg false lk c p nm) := by
  unfold bookLogk
  simp only [Bool.false_eq_true, if_false]
  keeps
  rfl

theorem keeps_half_book (nm : String) (toCov : Bool) (o : SystOpts) : Keeps (fun s : State V => s.logkhalf) (bookSystematic nm toCov o) := by
  unfold bookSystematic
  keeps <;> split_ifs <;> rfl

theorem keeps_half_normLoop {cfg : Cfg V} (name c : String) (toCov : Bool) (symm : Symm) (o : SystOpts) (l : List (String × Unc V)) :
    (∀ x ∈ l, ∃ u, x.2 = .num u) → ∀ v, Keeps (fun s : State V => s.logkhalf) (normLoop cfg name c toCov symm o v l) := by
  induction l with
  | nil => exact fun _ _ => Keeps.pure _
  | cons x l ih =>
    obtain ⟨p, u⟩ := x
    intro h v
    obtain ⟨w, hw⟩ := h (p, u) List.mem_cons_self
    have hw' : u = .num w := hw
    subst hw'
    unfold normLoop
    refine Keeps.bind ?_ fun v' => ih (fun x hx => h x (List.mem_cons_of_mem _ hx)) v'
    unfold normOne
    refine Keeps.bind ⟨fun _ => rfl⟩ fun s => Keeps.bind (Keeps.lift _) fun nc => Keeps.bind (Keeps.lift _) fun n => ?_
    exact Keeps.bind (Keeps.lift _) fun lk => Keeps.bind (keeps_half_bookLogk ..) fun _ => Keeps.pure _

theorem keeps_half_norm {cfg : Cfg V} (name c : String) (procs : List String) (us : List V) (toCov : Bool) (symm : Symm) (o : SystOpts) :
    Keeps (fun s : State V => s.logkhalf) (addNormSystematic cfg name procs c (us.map .num) toCov symm o) := by
  unfold addNormSystematic
  refine Keeps.bind (by unfold M.raiseIf; keeps) fun _ => Keeps.bind (keeps_half_normLoop _ _ _ _ _ _ (fun x hx => ?_) _) fun v => keeps_half_book ..
  obtain ⟨h1, h2⟩ := List.of_mem_zip hx
  obtain ⟨u, _, hu⟩ := List.mem_map.1 h2
  exact ⟨u, hu.symm⟩

end Verif.Writer
