import Verif.Lemmas.Writer
import Mathlib.Algebra.Order.Ring.Rat
import Mathlib.Data.Rat.Floor

/-!
C01 (templates are write-once) and C17 (stored templates are finite and non-negative).
-/

namespace Verif.Writer

open Verif.Logk M

set_option linter.unusedSectionVars false

variable {V : Type} [Field V] [LinearOrder V]

/-! ### A small concrete writer for the examples -/

namespace Ex

/-- an axis with `n` bins and no flow bins -/
def ax (n : Nat) : Axis := ⟨some "x", n, n, false, false, none⟩

def cfg : Cfg ℚ := ⟨⟨fun x => x - 1, -7, 7 / 4⟩, false, .logNormal, false, false, fun a b => a.bins == b.bins⟩

def h (l : List ℚ) : HIn ℚ := .hist [ax l.length] (fun _ => l.map .fin) (fun _ => l.map .fin)

end Ex

/-! ### C01 -/

/-- C01, data: once `add_data` has accepted data for a channel, after any further history of calls (including `write`
and rejected calls) the stored values and variances are those of the accepted call, and every further `add_data` for
this channel raises and changes nothing. -/
theorem c01_data (cfg : Cfg V) (s : State V) (h : HIn V) (chan : String) (vars : Option (HIn V))
    (hok : (step cfg (.data h chan vars) s).2 = .ok ()) (ops : List (Op V)) :
    let s' := runOps cfg (step cfg (.data h chan vars) s).1 ops
    s'.dataObs.get? chan = some (h.flatVals false) ∧
    (∃ v, (vars.getD h).flatVars false = .ok v ∧ s'.dataVar.get? chan = some v) ∧
    ∀ h' vars', ∃ e, step cfg (.data h' chan vars') s' = (s', .error e) := by
  intro s'
  have hacc : ∃ v, (vars.getD h).flatVars false = .ok v ∧
      (step cfg (.data h chan vars) s).1.dataObs.get? chan = some (h.flatVals false) ∧
      (step cfg (.data h chan vars) s).1.dataVar.get? chan = some v := by
    simp only [step] at hok ⊢
    rcases addData_cases cfg h chan vars s with ⟨e, _, he⟩ | ⟨_, _, he⟩ | ⟨_, _, ⟨e, _, he⟩ | ⟨v, hv, he⟩⟩
    · rw [he] at hok; cases hok
    · rw [he] at hok; cases hok
    · rw [he] at hok; cases hok
    · rw [he]; exact ⟨v, hv, by simp, by simp⟩
  obtain ⟨v, hv, h1, h2⟩ := hacc
  have hinv : s'.dataObs.get? chan = some (h.flatVals false) ∧ s'.dataVar.get? chan = some v := by
    refine runOps_induction (P := fun s => s.dataObs.get? chan = some (h.flatVals false) ∧ s.dataVar.get? chan = some v)
      cfg (fun op s hs => ?_) ops _ ⟨h1, h2⟩
    have key : ∀ {m : M V Unit}, Keeps (fun s => (s.dataObs, s.dataVar)) m →
        (m s).1.dataObs.get? chan = some (h.flatVals false) ∧ (m s).1.dataVar.get? chan = some v := fun hm => by
      have := hm.run s
      simp only [Prod.mk.injEq] at this
      rw [this.1, this.2]; exact hs
    have kc : ∀ {m : M V Unit}, Keeps core m → Keeps (fun s : State V => (s.dataObs, s.dataVar)) m := fun hm =>
      keeps_of_core hm _ fun s t e => by
        have := congrArg (fun c : Core V => (c.dataObs, c.dataVar)) e
        exact this
    cases op with
    | channel axes name m f => exact key (keeps_addChannel _ (fun _ _ _ _ _ _ _ => rfl) ..)
    | dataCov c => exact key ⟨fun _ => rfl⟩
    | pseudo h name c => exact key (keeps_addPseudo _ (fun _ _ _ => rfl) ..)
    | process h name c sig vars => exact key (keeps_addProcess _ (fun _ _ _ _ _ _ _ => rfl) ..)
    | syst x name proc c k m sy t d o => exact key (kc (keeps_addSystematic ..))
    | normSyst name procs c u t sy o => exact key (kc (keeps_addNormSystematic ..))
    | write it =>
      refine key ?_
      exact Keeps.bind (keeps_write _ (fun _ _ => rfl) ..) fun _ => Keeps.pure _
    | data h' chan' vars' =>
      simp only [step]
      rcases addData_cases cfg h' chan' vars' s with ⟨e, _, he⟩ | ⟨_, _, he⟩ | ⟨_, hh, ⟨e, _, he⟩ | ⟨v, hv, he⟩⟩
      · rw [he]; exact hs
      · rw [he]; exact hs
      all_goals
        have hne : chan' ≠ chan := by
          rintro rfl
          rw [Dict.has_eq_false_iff, hs.1] at hh; cases hh
        rw [he]
        simp only [Dict.get?_set_ne _ _ hne]
        exact hs
  refine ⟨hinv.1, ⟨v, hv, hinv.2⟩, fun h' vars' => ?_⟩
  simp only [step]
  have hhas : s'.dataObs.has chan = true := (Dict.has_iff _ _).2 ⟨_, hinv.1⟩
  rcases addData_cases cfg h' chan vars' s' with ⟨e, _, he⟩ | ⟨_, _, he⟩ | ⟨_, hh, _⟩
  · exact ⟨e, he⟩
  · exact ⟨_, he⟩
  · rw [hhas] at hh; cases hh

/-- The call registers the channel `chan` (possibly under its default name). -/
def Spec.addsChannel (s : State V) (chan : String) : Op V → Prop
  | .channel _ name _ _ => name.getD s!"ch{s.channels.length}" = chan
  | _ => False

/-- no call of the history registers the channel `chan` again -/
def Spec.neverReadded (cfg : Cfg V) (chan : String) : State V → List (Op V) → Prop
  | _, [] => True
  | s, op :: ops => ¬ Spec.addsChannel s chan op ∧ Spec.neverReadded cfg chan (step cfg op s).1 ops

/-- the template stored for a (process, channel) pair -/
def Spec.template (s : State V) (chan name : String) : Option (Norm V × List V) :=
  match s.norm.get? chan, s.sumw2.get? chan with
  | some nc, some wc => match nc.get? name, wc.get? name with
    | some n, some w => some (n, w)
    | _, _ => none
  | _, _ => none

theorem template_eq_some {s : State V} {chan name : String} {x : Norm V × List V} :
    Spec.template s chan name = some x ↔ ∃ nc wc, s.norm.get? chan = some nc ∧ s.sumw2.get? chan = some wc ∧
      nc.get? name = some x.1 ∧ wc.get? name = some x.2 := by
  unfold Spec.template
  constructor
  · intro h
    split at h
    · rename_i nc wc hn hw
      split at h
      · rename_i n w h1 h2
        cases h
        exact ⟨nc, wc, hn, hw, h1, h2⟩
      · cases h
    · cases h
  · rintro ⟨nc, wc, hn, hw, h1, h2⟩
    simp [hn, hw, h1, h2]

theorem template_keeps {m : M V Unit} (hm : Keeps (fun s => (s.norm, s.sumw2)) m) (s : State V) (chan name : String) :
    Spec.template (m s).1 chan name = Spec.template s chan name := by
  have := hm.run s
  simp only [Prod.mk.injEq] at this
  unfold Spec.template
  rw [this.1, this.2]

/-- outcome of any call on the template of a pair: unchanged unless the channel is registered again -/
theorem template_step (cfg : Cfg V) (op : Op V) (s : State V) (chan name : String) (x : Norm V × List V)
    (hx : Spec.template s chan name = some x) (hne : ¬ Spec.addsChannel s chan op) :
    Spec.template (step cfg op s).1 chan name = some x := by
  have kc : ∀ {m : M V Unit}, Keeps core m → Keeps (fun s : State V => (s.norm, s.sumw2)) m := fun hm =>
    keeps_of_core hm _ fun s t e => by
      have := congrArg (fun c : Core V => (c.norm, c.sumw2)) e
      exact this
  have key : ∀ {m : M V Unit}, Keeps (fun s : State V => (s.norm, s.sumw2)) m →
      Spec.template (m s).1 chan name = some x := fun hm => by rw [template_keeps hm]; exact hx
  cases op with
  | dataCov c => exact key ⟨fun _ => rfl⟩
  | pseudo h name c => exact key (keeps_addPseudo _ (fun _ _ _ => rfl) ..)
  | data h c vars => exact key (keeps_addData _ (fun _ _ _ => rfl) ..)
  | syst x name proc c k m sy t d o => exact key (kc (keeps_addSystematic ..))
  | normSyst name procs c u t sy o => exact key (kc (keeps_addNormSystematic ..))
  | write it => exact key (Keeps.bind (keeps_write _ (fun _ _ => rfl) ..) fun _ => Keeps.pure _)
  | channel axes nm m f =>
    simp only [step, addChannel, raiseIf_bind]
    split
    · exact hx
    · rw [read_bind]
      obtain ⟨nc, wc, hn, hw, h1, h2⟩ := template_eq_some.1 hx
      simp only [Spec.addsChannel] at hne
      refine template_eq_some.2 ⟨nc, wc, ?_, ?_, h1, h2⟩
      · simp only [M.modify]; rw [Dict.get?_set_ne _ _ hne]; exact hn
      · simp only [M.modify]; rw [Dict.get?_set_ne _ _ hne]; exact hw
  | process h nm c sig vars =>
    simp only [step]
    obtain ⟨nc, wc, hn, hw, h1, h2⟩ := template_eq_some.1 hx
    rcases addProcess_cases cfg h nm c sig vars s with
      ⟨s', e, e1, e2, _⟩ | ⟨ch, nc', wc', n, w, _, hn', hh, hw', _, _, e1, e2, _⟩
    · rw [e]
      exact template_eq_some.2 ⟨nc, wc, by rw [e1]; exact hn, by rw [e2]; exact hw, h1, h2⟩
    · by_cases hc : c = chan
      · subst hc
        rw [hn] at hn'; cases hn'
        rw [hw] at hw'; cases hw'
        have hnm : nm ≠ name := by
          rintro rfl
          rw [Dict.has_eq_false_iff, h1] at hh; cases hh
        exact template_eq_some.2 ⟨nc.set nm n, wc.set nm w, by rw [e1]; simp, by rw [e2]; simp,
          by rw [Dict.get?_set_ne _ _ hnm]; exact h1, by rw [Dict.get?_set_ne _ _ hnm]; exact h2⟩
      · exact template_eq_some.2 ⟨nc, wc, by rw [e1, Dict.get?_set_ne _ _ hc]; exact hn,
          by rw [e2, Dict.get?_set_ne _ _ hc]; exact hw, h1, h2⟩

/-- C01, processes, for histories that do not register the channel again: once `add_process` has accepted a template for
a (process, channel) pair, after any further history the stored template and variances are those of the accepted call,
and every further `add_process` for this pair raises and keeps them.  (`c01_readd_violated`: the restriction is
necessary.) -/
theorem c01_process_partial (cfg : Cfg V) (s : State V) (h : HIn V) (name chan : String) (sig : Bool)
    (vars : Option (HIn V)) (hok : (step cfg (.process h name chan sig vars) s).2 = .ok ()) (ops : List (Op V))
    (hre : Spec.neverReadded cfg chan (step cfg (.process h name chan sig vars) s).1 ops) :
    let s' := runOps cfg (step cfg (.process h name chan sig vars) s).1 ops
    ∃ c n w, s.channels.get? chan = some c ∧ procNorm cfg h c.flow = .ok n ∧ procSumw2 h vars c.flow = .ok w ∧
      Spec.template s' chan name = some (n, w) ∧
      ∀ h' sig' vars', ∃ e, (step cfg (.process h' name chan sig' vars') s').2 = .error e ∧
        Spec.template (step cfg (.process h' name chan sig' vars') s').1 chan name = some (n, w) := by
  intro s'
  simp only [step] at hok
  rcases addProcess_cases cfg h name chan sig vars s with
    ⟨_, _, _, _, e, he⟩ | ⟨c, nc, wc, n, w, hc, hn, hh, hw, hpn, hpw, e1, e2, _⟩
  · rw [he] at hok; cases hok
  have hchan : s.channels.get? chan = some c := by
    unfold checkHist at hc
    cases hg : s.channels.get? chan with
    | none => rw [hg] at hc; cases hc
    | some c' =>
      rw [hg] at hc
      cases h with
      | hist axes _ _ | sparseHist axes _ =>
        simp only [Except.map] at hc
        split at hc
        · cases hc
        · cases hc; rfl
      | scipy shape _ => simp only at hc; split at hc <;> [(cases hc; rfl); cases hc]
      | array shape _ => simp only at hc; split at hc <;> [(cases hc; rfl); cases hc]
  have h0 : Spec.template (step cfg (.process h name chan sig vars) s).1 chan name = some (n, w) :=
    template_eq_some.2 ⟨nc.set name n, wc.set name w, by simp only [step]; rw [e1]; simp,
      by simp only [step]; rw [e2]; simp, by simp, by simp⟩
  have hfin : Spec.template s' chan name = some (n, w) := by
    have : ∀ (ops : List (Op V)) (t : State V), Spec.template t chan name = some (n, w) →
        Spec.neverReadded cfg chan t ops → Spec.template (runOps cfg t ops) chan name = some (n, w) := by
      intro ops
      induction ops with
      | nil => exact fun t ht _ => ht
      | cons op ops ih => exact fun t ht hr => ih _ (template_step cfg op t chan name _ ht hr.1) hr.2
    exact this ops _ h0 hre
  refine ⟨c, n, w, hchan, hpn, hpw, hfin, fun h' sig' vars' => ?_⟩
  have hkeep := template_step cfg (.process h' name chan sig' vars') s' chan name _ hfin (by simp [Spec.addsChannel])
  simp only [step] at hkeep ⊢
  rcases addProcess_cases cfg h' name chan sig' vars' s' with
    ⟨_, _, _, _, e, he⟩ | ⟨_, nc', _, _, _, _, hn', hh', _⟩
  · exact ⟨e, he, hkeep⟩
  · obtain ⟨nc'', _, hn'', _, h1, _⟩ := template_eq_some.1 hfin
    rw [hn''] at hn'; cases hn'
    rw [Dict.has_eq_false_iff, h1] at hh'; cases hh'

/-- The code violates C01: registering a channel name again wipes its templates, so a second template for the same
(process, channel) pair is accepted and replaces the first one.  The second registration may be implicit: the default
name `ch{n}` can be taken already. -/
theorem c01_readd_violated : ∃ (cfg : Cfg ℚ) (s : State ℚ) (op₁ op₂ op₃ : Op ℚ),
    (∃ h, op₁ = .process h "p" "ch1" false none) ∧ (∃ h, op₃ = .process h "p" "ch1" false none) ∧
    op₂ = .channel [Ex.ax 2] none false false ∧
    (step cfg op₁ s).2 = .ok () ∧ (step cfg op₃ (runOps cfg s [op₁, op₂])).2 = .ok () ∧
    Spec.template (runOps cfg s [op₁]) "ch1" "p" ≠ Spec.template (runOps cfg s [op₁, op₂, op₃]) "ch1" "p" := by
  refine ⟨Ex.cfg, runOps Ex.cfg {} [.channel [Ex.ax 2] (some "ch1") false false],
    .process (Ex.h [1, 2]) "p" "ch1" false none, .channel [Ex.ax 2] none false false,
    .process (Ex.h [3, 4]) "p" "ch1" false none, ⟨_, rfl⟩, ⟨_, rfl⟩, rfl, ?_, ?_, ?_⟩ <;> decide +kernel

/-- the hypotheses of `c01_data` and `c01_process_partial` are met by an ordinary history -/
example :
    let s := runOps Ex.cfg {} [.channel [Ex.ax 2] (some "a") false false]
    (step Ex.cfg (.data (Ex.h [5, 6]) "a" none) s).2 = .ok () ∧
    (step Ex.cfg (.process (Ex.h [1, 2]) "p" "a" true none) s).2 = .ok () ∧
    Spec.neverReadded Ex.cfg "a" (step Ex.cfg (.process (Ex.h [1, 2]) "p" "a" true none) s).1
      [.channel [Ex.ax 3] (some "b") true false, .process (Ex.h [9, 9]) "p" "a" true none] := by
  refine ⟨by decide +kernel, by decide +kernel, ?_, ?_, trivial⟩
  · simp [Spec.addsChannel]
  · simp [Spec.addsChannel]

/-! ### C17 -/

/-- What may be stored for an input value: the value itself, clipped at zero unless negative expectations are allowed;
NaN and +inf are never stored, -inf only as a clipped zero. -/
def Spec.storedAs (allowNeg : Bool) : FVal V → V → Prop
  | .fin r, v => v = if allowNeg then r else max r 0
  | .ninf, v => allowNeg = false ∧ v = 0
  | .nan, _ => False
  | .pinf, _ => False

/-- content of bin `i` of a stored template -/
def Norm.at (n : Norm V) (i : Nat) : V :=
  match n with
  | .dense l => l.getD i 0
  | .csr _ l => ((l.find? fun e => e.1 == i).map (·.2)).getD 0

theorem procNorm_stored (cfg : Cfg V) (h : HIn V) (flow : Bool) (n : Norm V)
    (hcan : ((h.flatCsr flow).2.map (·.1)).Nodup) (hn : procNorm cfg h flow = .ok n) (i : Nat) (x : FVal V)
    (hx : (h.flatVals flow)[i]? = some x) : Spec.storedAs cfg.allowNeg x (n.at i) := by
  unfold procNorm at hn
  split at hn
  · rename_i hs
    rw [Bool.and_eq_true] at hs
    -- sparse template
    have hfv : h.flatVals flow = densify (.fin 0) (h.flatCsr flow).1 (h.flatCsr flow).2 := by
      cases h with
      | hist | array => simp [HIn.isSparse] at hs
      | sparseHist | scipy => rfl
    rw [hfv] at hx
    generalize hL : h.flatCsr flow = L at *
    obtain ⟨size, L⟩ := L
    simp only [densify, List.getElem?_map, Option.map_eq_some_iff] at hx hn hcan
    obtain ⟨j, hj, hx⟩ := hx
    have : j = i := by
      rw [List.getElem?_eq_some_iff] at hj
      obtain ⟨hlt, hj⟩ := hj
      rw [← hj, List.getElem_range]
    subst this
    split at hn
    · cases hn
    · rename_i l hl
      rw [finitesCsr_eq_some] at hl
      subst hl
      simp only [List.map_map, Function.comp_def] at hcan
      have hfind : (l.map fun e => ((e.1, FVal.fin e.2) : Nat × FVal V)).find? (fun e => e.1 == j) =
          (l.find? fun e => e.1 == j).map fun e => (e.1, FVal.fin e.2) := by
        rw [List.find?_map]; rfl
      rw [hfind] at hx
      split at hn
      · rename_i hneg
        cases hn
        rw [Bool.and_eq_true, Bool.not_eq_true'] at hneg
        simp only [Norm.at]
        rw [find?_filter_of_nodup (by simpa [Function.comp_def] using hcan), List.find?_map]
        cases hf : l.find? (fun e => e.1 == j) with
        | none =>
          rw [hf] at hx; simp at hx; subst hx
          have : l.find? ((fun e => e.1 == j) ∘ fun e => (e.1, max e.2 0)) = none := hf
          rw [this]; simp [Spec.storedAs, hneg.1]
        | some e =>
          rw [hf] at hx; simp at hx; subst hx
          have : l.find? ((fun e => e.1 == j) ∘ fun e => (e.1, max e.2 0)) = some e := hf
          rw [this]
          by_cases h0 : max e.2 0 = 0
          · simp [Spec.storedAs, hneg.1, h0, Option.filter]
          · simp [Spec.storedAs, hneg.1, h0, Option.filter]
      · rename_i hneg
        cases hn
        simp only [Norm.at]
        cases hf : l.find? (fun e => e.1 == j) with
        | none => rw [hf] at hx; simp at hx; subst hx; simp [Spec.storedAs]
        | some e =>
          rw [hf] at hx; simp at hx; subst hx
          simp only [Option.map_some, Option.getD_some, Spec.storedAs]
          split
          · rfl
          · rename_i ha
            have he : e ∈ l := List.mem_of_find?_eq_some hf
            simp only [Bool.and_eq_true, Bool.not_eq_true', List.any_eq_true, not_and, not_exists,
              decide_eq_true_eq] at hneg
            have := hneg (by simpa using ha) e he
            rw [max_eq_left (not_lt.1 this)]
  · dsimp only at hn
    split at hn
    · cases hn
    · rename_i l hl
      cases hn
      rw [finites_eq_some] at hl
      simp only [Norm.at]
      split at hl
      · rename_i ha
        rw [hl, List.getElem?_map, Option.map_eq_some_iff] at hx
        obtain ⟨r, hr, hx⟩ := hx
        subst hx
        simp [Spec.storedAs, ha, hr]
      · rename_i ha
        have hmap : (h.flatVals flow)[i]?.map FVal.clip0 = l[i]?.map .fin := by
          rw [← List.getElem?_map, ← List.getElem?_map, hl]
        rw [hx] at hmap
        simp only [Option.map_some] at hmap
        have hm := hmap.symm
        rw [Option.map_eq_some_iff] at hm
        obtain ⟨r, hr, hm⟩ := hm
        cases x with
        | fin v => simp only [FVal.clip0, FVal.fin.injEq] at hm; simp [Spec.storedAs, hr, hm, ha]
        | ninf => simp only [FVal.clip0, FVal.fin.injEq] at hm; simp [Spec.storedAs, hr, hm, ha]
        | nan | pinf => simp [FVal.clip0] at hm

/-- C17: whatever the histogram contains, if `add_process` accepts it then in every bin the stored value is the input
value, clipped at zero exactly where it is negative (unless negative expectations are allowed); in particular NaN and
+inf are never accepted.  Sparse inputs are in canonical format (no bin occurs twice). -/
theorem c17_stored (cfg : Cfg V) (s : State V) (h : HIn V) (name chan : String) (sig : Bool) (vars : Option (HIn V))
    (hcan : ∀ flow, ((h.flatCsr flow).2.map (·.1)).Nodup)
    (hok : (step cfg (.process h name chan sig vars) s).2 = .ok ()) :
    ∃ c n w, s.channels.get? chan = some c ∧
      Spec.template (step cfg (.process h name chan sig vars) s).1 chan name = some (n, w) ∧
      ∀ i x, (h.flatVals c.flow)[i]? = some x → Spec.storedAs cfg.allowNeg x (n.at i) := by
  obtain ⟨c, n, w, hc, hn, _, ht, _⟩ := c01_process_partial cfg s h name chan sig vars hok [] trivial
  exact ⟨c, n, w, hc, ht, fun i x hx => procNorm_stored cfg h c.flow n (hcan _) hn i x hx⟩

/-- C17: a histogram with a NaN or +inf bin (or -inf when negative expectations are allowed) is rejected with an
exception, and the stored templates are unchanged. -/
theorem c17_rejected (cfg : Cfg V) (s : State V) (h : HIn V) (name chan : String) (sig : Bool) (vars : Option (HIn V))
    (hcan : ∀ flow, ((h.flatCsr flow).2.map (·.1)).Nodup) (c : Chan) (hc : s.channels.get? chan = some c) (x : FVal V)
    (hx : x ∈ h.flatVals c.flow) (hbad : x = .nan ∨ x = .pinf ∨ (x = .ninf ∧ cfg.allowNeg = true)) :
    (∃ e, (step cfg (.process h name chan sig vars) s).2 = .error e) ∧
      (step cfg (.process h name chan sig vars) s).1.norm = s.norm := by
  rcases addProcess_cases cfg h name chan sig vars s with
    ⟨_, he, e1, _, e, hr⟩ | ⟨_, _, _, _, _, _, _, _, _, _, _, _, _, hr⟩
  · exact ⟨⟨e, hr⟩, by simp only [step]; rw [he]; exact e1⟩
  · obtain ⟨c', n, w, hc', _, hst⟩ := c17_stored cfg s h name chan sig vars hcan (by simpa [step] using hr)
    rw [hc] at hc'; cases hc'
    obtain ⟨i, hi⟩ := List.mem_iff_getElem?.1 hx
    have := hst i x hi
    rcases hbad with rfl | rfl | ⟨rfl, ha⟩
    · exact this.elim
    · exact this.elim
    · simp only [Spec.storedAs] at this
      rw [this.1] at ha; cases ha

theorem procNorm_nonneg (cfg : Cfg V) (h : HIn V) (flow : Bool) (n : Norm V) (hneg : cfg.allowNeg = false)
    (hn : procNorm cfg h flow = .ok n) : ∀ v ∈ n.vals, 0 ≤ v := by
  unfold procNorm at hn
  split at hn
  · dsimp only at hn
    split at hn
    · cases hn
    · rename_i l hl
      split at hn
      · cases hn
        intro v hv
        simp only [Norm.vals, List.mem_map, List.mem_filter] at hv
        obtain ⟨e, ⟨⟨e', _, rfl⟩, _⟩, rfl⟩ := hv
        exact le_max_right _ _
      · rename_i hany
        cases hn
        intro v hv
        simp only [Norm.vals, List.mem_map] at hv
        obtain ⟨e, he, rfl⟩ := hv
        simp only [hneg, Bool.not_false, Bool.true_and, List.any_eq_true, not_exists, not_and,
          decide_eq_true_eq] at hany
        exact not_lt.1 (hany e he)
  · dsimp only at hn
    split at hn
    · cases hn
    · rename_i l hl
      cases hn
      rw [finites_eq_some, hneg] at hl
      simp only [Bool.false_eq_true, if_false] at hl
      intro v hv
      simp only [Norm.vals] at hv
      have : FVal.fin v ∈ (h.flatVals flow).map FVal.clip0 := by rw [hl]; exact List.mem_map.2 ⟨v, hv, rfl⟩
      obtain ⟨x, _, hx⟩ := List.mem_map.1 this
      cases x with
      | fin r => simp only [FVal.clip0, FVal.fin.injEq] at hx; rw [← hx]; exact le_max_right _ _
      | ninf => simp only [FVal.clip0, FVal.fin.injEq] at hx; rw [← hx]
      | nan | pinf => cases hx

/-- C17: after every history of calls all stored templates are non-negative unless negative expectations are allowed. -/
theorem c17_nonneg (cfg : Cfg V) (hneg : cfg.allowNeg = false) (ops : List (Op V)) (chan name : String)
    (nc : Dict String (Norm V)) (n : Norm V) (hc : (run cfg ops).norm.get? chan = some nc)
    (hn : nc.get? name = some n) : ∀ v ∈ n.vals, 0 ≤ v := by
  let P : State V → Prop := fun s => ∀ chan nc name n, s.norm.get? chan = some nc → nc.get? name = some n →
    ∀ v ∈ n.vals, 0 ≤ v
  have hP : P (run cfg ops) := by
    refine runOps_induction cfg (fun op s hs => ?_) ops {} (fun _ _ _ _ h => by cases h)
    have key : ∀ {m : M V Unit}, Keeps (fun s : State V => s.norm) m → P (m s).1 := fun hm => by
      intro chan nc name n h1
      have h2 := hm.run s
      rw [h2] at h1
      exact hs chan nc name n h1
    have kc : ∀ {m : M V Unit}, Keeps core m → Keeps (fun s : State V => s.norm) m := fun hm =>
      keeps_of_core hm _ fun s t e => congrArg Core.norm e
    cases op with
    | dataCov c => exact key ⟨fun _ => rfl⟩
    | pseudo h name c => exact key (keeps_addPseudo _ (fun _ _ _ => rfl) ..)
    | data h c vars => exact key (keeps_addData _ (fun _ _ _ => rfl) ..)
    | syst x name proc c k m sy t d o => exact key (kc (keeps_addSystematic ..))
    | normSyst name procs c u t sy o => exact key (kc (keeps_addNormSystematic ..))
    | write it => exact key (Keeps.bind (keeps_write _ (fun _ _ => rfl) ..) fun _ => Keeps.pure _)
    | channel axes nm m f =>
      simp only [step, addChannel, raiseIf_bind]
      split
      · exact hs
      · rw [read_bind]
        intro chan nc name n h1 h2
        simp only [M.modify, Dict.get?_set] at h1
        split at h1
        · cases h1; cases h2
        · exact hs chan nc name n h1 h2
    | process h nm c sig vars =>
      simp only [step]
      rcases addProcess_cases cfg h nm c sig vars s with
        ⟨s', e, e1, _⟩ | ⟨ch, nc', wc', n', w, _, hn', _, _, hpn, _, e1, _⟩
      · intro chan nc name n h1 h2
        rw [e, e1] at h1
        exact hs chan nc name n h1 h2
      · intro chan nc name n h1 h2
        rw [e1, Dict.get?_set] at h1
        split at h1
        · rename_i hcc
          cases h1
          rw [Dict.get?_set] at h2
          split at h2
          · cases h2; exact procNorm_nonneg cfg h _ _ hneg hpn
          · exact hs c nc' name n hn' h2
        · exact hs chan nc name n h1 h2
  exact hP chan nc name n hc hn

/-- the hypotheses of the C17 theorems are met: a histogram with a negative bin is accepted and clipped, one with a NaN
bin is rejected -/
example :
    let s := runOps Ex.cfg {} [.channel [Ex.ax 2] (some "a") false false]
    (step Ex.cfg (.process (.hist [Ex.ax 2] (fun _ => [.fin (-1), .fin 2]) (fun _ => [.fin 1, .fin 1])) "p" "a" true none)
      s).2 = .ok () ∧
    (step Ex.cfg (.process (.hist [Ex.ax 2] (fun _ => [.nan, .fin 2]) (fun _ => [.fin 1, .fin 1])) "p" "a" true none)
      s).2 = .error .runtime := by
  decide +kernel

end Verif.Writer
