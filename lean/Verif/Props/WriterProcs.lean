import Verif.Lemmas.Write
import Verif.Lemmas.NaturalSort
import Verif.Model.ParamModels
import Verif.Props.WriterTemplates

/-!
C03: the process axis, and the default signal-strength model.
-/

namespace Verif.Writer

open Verif.Logk M

set_option linter.unusedSectionVars false

variable {V : Type} [Field V] [LinearOrder V]

/-- effect of `add_process` on the sets of names: accepted calls always register the name, rejected ones may -/
theorem addProcess_names (cfg : Cfg V) (h : HIn V) (name chan : String) (sig : Bool) (vars : Option (HIn V))
    (s : State V) :
    let s' := (addProcess cfg h name chan sig vars s).1
    ((∃ e, (addProcess cfg h name chan sig vars s).2 = .error e) ∧ s'.signals = s.signals ∧ s'.bkgs = s.bkgs) ∨
    (s'.signals = (if sig then setAdd s.signals name else s.signals) ∧
      s'.bkgs = (if sig then s.bkgs else setAdd s.bkgs name)) := by
  intro s'
  simp only [s']
  unfold addProcess
  rw [read_bind]
  cases hc : checkHist cfg s.channels h chan with
  | error e => exact .inl ⟨⟨e, rfl⟩, rfl, rfl⟩
  | ok c =>
    rw [lift_ok_bind]
    cases hn : s.norm.get chan with
    | error e => exact .inl ⟨⟨e, rfl⟩, rfl, rfl⟩
    | ok nc =>
      rw [lift_ok_bind, raiseIf_bind]
      cases hh : nc.has name with
      | true => exact .inl ⟨⟨_, rfl⟩, rfl, rfl⟩
      | false =>
        refine .inr ?_
        simp only [Bool.false_eq_true, if_false, modify_bind]
        generalize hs1 : (if sig = true then { s with signals := setAdd s.signals name }
          else { s with bkgs := setAdd s.bkgs name } : State V) = s1
        have e1 : s1.signals = (if sig then setAdd s.signals name else s.signals) := by
          rw [← hs1]; split <;> simp_all
        have e2 : s1.bkgs = (if sig then s.bkgs else setAdd s.bkgs name) := by
          rw [← hs1]; split <;> simp_all
        rw [← e1, ← e2]
        have key : ∀ {m : M V Unit}, Keeps (fun s : State V => (s.signals, s.bkgs)) m →
            (m s1).1.signals = s1.signals ∧ (m s1).1.bkgs = s1.bkgs := fun hm => by
          have := hm.run s1
          simp only [Prod.mk.injEq] at this
          exact this
        apply key
        keeps <;> rfl

/-! ### Specification -/

/-- Python's order of strings -/
def Spec.strLe (a b : String) : Prop := charsLt b.toList a.toList = false

/-- the call is an `add_process` for `name` with the given kind -/
def Spec.isProcess (name : String) (sig : Bool) : Op V → Prop
  | .process _ n _ g _ => n = name ∧ g = sig
  | _ => False

/-- the history contains an accepted `add_process` for `name` -/
def Spec.accepted (cfg : Cfg V) (name : String) (sig : Bool) (s : State V) (ops : List (Op V)) : Prop :=
  ∃ l op r, ops = l ++ op :: r ∧ Spec.isProcess name sig op ∧ (step cfg op (runOps cfg s l)).2 = .ok ()

/-- the set the writer keeps for a kind -/
def namesOf (sig : Bool) (s : State V) : List String := if sig then s.signals else s.bkgs

theorem namesOf_step (cfg : Cfg V) (op : Op V) (s : State V) (sig : Bool) :
    (namesOf sig (step cfg op s).1 = namesOf sig s ∧ ∀ n, Spec.isProcess n sig op → ∃ e, (step cfg op s).2 = .error e) ∨
    (∃ n, Spec.isProcess n sig op ∧ namesOf sig (step cfg op s).1 = setAdd (namesOf sig s) n) := by
  have key : ∀ {m : M V Unit}, Keeps (fun s : State V => (s.signals, s.bkgs)) m → namesOf sig (m s).1 = namesOf sig s :=
    fun hm => by
      have := hm.run s
      simp only [Prod.mk.injEq] at this
      unfold namesOf; rw [this.1, this.2]
  have kc : ∀ {m : M V Unit}, Keeps core m → Keeps (fun s : State V => (s.signals, s.bkgs)) m := fun hm =>
    keeps_of_core hm _ fun s t e => by
      have := congrArg (fun c : Core V => (c.signals, c.bkgs)) e
      exact this
  cases op with
  | dataCov c => exact .inl ⟨key ⟨fun _ => rfl⟩, fun _ h => h.elim⟩
  | pseudo h name c => exact .inl ⟨key (keeps_addPseudo _ (fun _ _ _ => rfl) ..), fun _ h => h.elim⟩
  | data h c vars => exact .inl ⟨key (keeps_addData _ (fun _ _ _ => rfl) ..), fun _ h => h.elim⟩
  | channel a n m f => exact .inl ⟨key (keeps_addChannel _ (fun _ _ _ _ _ _ _ => rfl) ..), fun _ h => h.elim⟩
  | syst x name proc c k m sy t d o => exact .inl ⟨key (kc (keeps_addSystematic ..)), fun _ h => h.elim⟩
  | normSyst name procs c u t sy o => exact .inl ⟨key (kc (keeps_addNormSystematic ..)), fun _ h => h.elim⟩
  | write it =>
    exact .inl ⟨key (Keeps.bind (keeps_write _ (fun _ _ => rfl) ..) fun _ => Keeps.pure _), fun _ h => h.elim⟩
  | process h name c g vars =>
    simp only [step]
    rcases addProcess_names cfg h name c g vars s with ⟨he, h1, h2⟩ | ⟨h1, h2⟩
    · exact .inl ⟨by unfold namesOf; rw [h1, h2], fun _ _ => he⟩
    · by_cases hg : g = sig
      · subst hg
        refine .inr ⟨name, ⟨rfl, rfl⟩, ?_⟩
        unfold namesOf; rw [h1, h2]
        cases g <;> simp
      · refine .inl ⟨?_, fun n hn => (hg hn.2).elim⟩
        unfold namesOf; rw [h1, h2]
        cases g <;> cases sig <;> simp_all

theorem namesOf_run (cfg : Cfg V) (sig : Bool) (ops : List (Op V)) : ∀ s : State V, (namesOf sig s).Nodup →
    (namesOf sig (runOps cfg s ops)).Nodup ∧
    (∀ n ∈ namesOf sig s, n ∈ namesOf sig (runOps cfg s ops)) ∧
    (∀ n, Spec.accepted cfg n sig s ops → n ∈ namesOf sig (runOps cfg s ops)) ∧
    (∀ n ∈ namesOf sig (runOps cfg s ops), n ∈ namesOf sig s ∨ ∃ op ∈ ops, Spec.isProcess n sig op) := by
  induction ops with
  | nil =>
    intro s hs
    refine ⟨hs, fun _ h => h, ?_, fun n h => .inl h⟩
    rintro n ⟨l, op, r, h, _⟩
    simp at h
  | cons op ops ih =>
    intro s hs
    have hstep := namesOf_step cfg op s sig
    have hs' : (namesOf sig (step cfg op s).1).Nodup := by
      rcases hstep with ⟨h, _⟩ | ⟨n, _, h⟩
      · rw [h]; exact hs
      · rw [h]; exact nodup_setAdd _ _ hs
    have hmono : ∀ n ∈ namesOf sig s, n ∈ namesOf sig (step cfg op s).1 := by
      intro m hm
      rcases hstep with ⟨h, _⟩ | ⟨n, _, h⟩
      · rw [h]; exact hm
      · rw [h, mem_setAdd]; exact .inl hm
    obtain ⟨i1, i2, i3, i4⟩ := ih _ hs'
    refine ⟨i1, fun n hn => i2 n (hmono n hn), ?_, ?_⟩
    · rintro n ⟨l, op', r, he, hp, hok⟩
      cases l with
      | nil =>
        simp only [List.nil_append, List.cons.injEq] at he
        obtain ⟨rfl, rfl⟩ := he
        refine i2 n ?_
        rcases hstep with ⟨_, h⟩ | ⟨m, hm, h⟩
        · obtain ⟨e, he⟩ := h n hp
          rw [show runOps cfg s [] = s from rfl] at hok
          rw [hok] at he; cases he
        · rw [h, mem_setAdd]
          right
          cases op with
          | process => exact hp.1.symm.trans hm.1
          | _ => exact hp.elim
      | cons x l =>
        simp only [List.cons_append, List.cons.injEq] at he
        obtain ⟨rfl, rfl⟩ := he
        exact i3 n ⟨l, op', r, rfl, hp, hok⟩
    · intro n hn
      rcases i4 n hn with h | ⟨op', h1, h2⟩
      · rcases hstep with ⟨h', _⟩ | ⟨m, hm, h'⟩
        · rw [h'] at h; exact .inl h
        · rw [h', mem_setAdd] at h
          rcases h with h | rfl
          · exact .inl h
          · exact .inr ⟨op, by simp, hm⟩
      · exact .inr ⟨op', by simp [h1], h2⟩

theorem sortedNames_perm (l : List String) : (sortedNames l).Perm l := pySort_perm _

theorem sortedNames_sorted (l : List String) : (sortedNames l).Pairwise Spec.strLe := by
  have := pySort_pairwise (le := fun a b : String => !(charsLt b.toList a.toList)) ?_ ?_ l
  · refine this.imp fun h => ?_
    simpa [Spec.strLe] using h
  · intro a b c h1 h2
    simp only [Bool.not_eq_true'] at h1 h2 ⊢
    by_contra h
    rw [Bool.not_eq_false] at h
    rcases charsLt_total a.toList b.toList with h3 | h3 | h3
    · have := charsLt_trans h h3
      rw [h2] at this; cases this
    · rw [h3] at h; rw [h2] at h; cases h
    · rw [h1] at h3; cases h3
  · intro a b
    cases h : charsLt b.toList a.toList with
    | false => simp
    | true =>
      cases h' : charsLt a.toList b.toList with
      | false => simp
      | true =>
        have := charsLt_trans h h'
        rw [charsLt_irrefl] at this; cases this

theorem strLe_antisymm {a b : String} (h1 : Spec.strLe a b) (h2 : Spec.strLe b a) : a = b := by
  rcases charsLt_total a.toList b.toList with h | h | h
  · rw [Spec.strLe] at h2; rw [h2] at h; cases h
  · exact String.toList_injective h
  · rw [Spec.strLe] at h1; rw [h1] at h; cases h

theorem sorted_unique {l m : List String} (hp : l.Perm m) (hl : l.Pairwise Spec.strLe) (hm : m.Pairwise Spec.strLe) : l = m :=
  List.Perm.eq_of_pairwise (le := Spec.strLe) (fun _ _ _ _ h1 h2 => strLe_antisymm h1 h2) hl hm hp

/-- C03: for every history of calls, the process axis of a written file is a block of signals followed by a block of
backgrounds; it lists no process twice, each block is sorted by name, every accepted `add_process` is listed in its
block, and nothing is listed that was not passed to `add_process`. -/
theorem c03_order (cfg : Cfg V) (ops : List (Op V)) (iter : List String → List String) (t : Tensor V)
    (hw : (write cfg iter (run cfg ops)).2 = .ok t) :
    ∃ bkgs, t.procs = t.signals ++ bkgs ∧ t.procs.Nodup ∧ t.signals.Pairwise Spec.strLe ∧ bkgs.Pairwise Spec.strLe ∧
      (∀ p, Spec.accepted cfg p true {} ops → p ∈ t.signals) ∧ (∀ p, Spec.accepted cfg p false {} ops → p ∈ bkgs) ∧
      (∀ p ∈ t.signals, ∃ op ∈ ops, Spec.isProcess p true op) ∧ (∀ p ∈ bkgs, ∃ op ∈ ops, Spec.isProcess p false op) := by
  obtain ⟨lay, cells, W⟩ := write_ok hw
  obtain ⟨n1, _, a1, b1⟩ := namesOf_run cfg true ops ({} : State V) (by simp [namesOf])
  obtain ⟨n2, _, a2, b2⟩ := namesOf_run cfg false ops ({} : State V) (by simp [namesOf])
  simp only [namesOf, if_true, Bool.false_eq_true, if_false, List.not_mem_nil, false_or] at n1 a1 b1 n2 a2 b2
  change (run cfg ops).signals.Nodup at n1
  change (run cfg ops).bkgs.Nodup at n2
  change ∀ n, _ → n ∈ (run cfg ops).signals at a1
  change ∀ n, _ → n ∈ (run cfg ops).bkgs at a2
  change ∀ n ∈ (run cfg ops).signals, _ at b1
  change ∀ n ∈ (run cfg ops).bkgs, _ at b2
  have hp := W.procs
  unfold procsOf at hp
  split at hp
  · cases hp
  · rename_i hany
    have p1 := sortedNames_perm (run cfg ops).signals
    have p2 := sortedNames_perm (run cfg ops).bkgs
    have hp : t.procs = sortedNames (run cfg ops).signals ++ sortedNames (run cfg ops).bkgs := (Except.ok.inj hp).symm
    refine ⟨sortedNames (run cfg ops).bkgs, by rw [W.signals]; exact hp, ?_, ?_, sortedNames_sorted _, ?_, ?_, ?_, ?_⟩
    · rw [hp, List.nodup_append]
      refine ⟨p1.nodup_iff.2 n1, p2.nodup_iff.2 n2, ?_⟩
      rintro a ha b hb rfl
      rw [p1.mem_iff] at ha
      rw [p2.mem_iff] at hb
      exact hany (List.any_eq_true.2 ⟨a, ha, by simpa using hb⟩)
    · rw [W.signals]; exact sortedNames_sorted _
    · intro p h; rw [W.signals, p1.mem_iff]; exact a1 p h
    · intro p h; rw [p2.mem_iff]; exact a2 p h
    · intro p h; rw [W.signals, p1.mem_iff] at h; exact b1 p h
    · intro p h; rw [p2.mem_iff] at h; exact b2 p h

/-- C03: the process axis depends only on the sets of names: two files (from any two histories, channel setups, input
values or iteration orders) that list the same signals and the same processes list them in the same order. -/
theorem c03_order_independent (cfg cfg' : Cfg V) (ops ops' : List (Op V)) (iter iter' : List String → List String)
    (t t' : Tensor V) (hw : (write cfg iter (run cfg ops)).2 = .ok t) (hw' : (write cfg' iter' (run cfg' ops')).2 = .ok t')
    (hs : ∀ p, p ∈ t.signals ↔ p ∈ t'.signals) (hp : ∀ p, p ∈ t.procs ↔ p ∈ t'.procs) :
    t.procs = t'.procs ∧ t.signals = t'.signals := by
  obtain ⟨b, e, nd, s1, s2, _⟩ := c03_order cfg ops iter t hw
  obtain ⟨b', e', nd', s1', s2', _⟩ := c03_order cfg' ops' iter' t' hw'
  rw [e, List.nodup_append] at nd
  rw [e', List.nodup_append] at nd'
  have h1 : t.signals = t'.signals := sorted_unique ((List.perm_ext_iff_of_nodup nd.1 nd'.1).2 hs) s1 s1'
  have h2 : b = b' := by
    refine sorted_unique ((List.perm_ext_iff_of_nodup nd.2.1 nd'.2.1).2 fun p => ?_) s2 s2'
    have := hp p
    rw [e, e', List.mem_append, List.mem_append] at this
    constructor
    · intro h
      rcases this.1 (.inr h) with h' | h'
      · exact (nd.2.2 p ((hs p).2 h') p h rfl).elim
      · exact h'
    · intro h
      rcases this.2 (.inr h) with h' | h'
      · exact (nd'.2.2 p ((hs p).1 h') p h rfl).elim
      · exact h'
  exact ⟨by rw [e, e', h1, h2], h1⟩

/-- C03: a process accepted both as signal and as background makes every `write` fail. -/
theorem c03_both_kinds (cfg : Cfg V) (ops : List (Op V)) (iter : List String → List String) (p : String)
    (h1 : Spec.accepted cfg p true {} ops) (h2 : Spec.accepted cfg p false {} ops) :
    (write cfg iter (run cfg ops)).2 = .error .runtime := by
  obtain ⟨_, _, a1, _⟩ := namesOf_run cfg true ops ({} : State V) (by simp [namesOf])
  obtain ⟨_, _, a2, _⟩ := namesOf_run cfg false ops ({} : State V) (by simp [namesOf])
  have m1 : p ∈ (run cfg ops).signals := a1 p h1
  have m2 : p ∈ (run cfg ops).bkgs := a2 p h2
  have : procsOf (run cfg ops) = .error .runtime := by
    unfold procsOf
    rw [if_pos (List.any_eq_true.2 ⟨p, m1, by simpa using m2⟩)]
  unfold write
  rw [read_bind, this, lift_error_bind]

/-- C03, default signal-strength model: for every written file and every parameter vector of the model (one parameter per
stored signal name), the rate of the process at position `i` of the process axis is parameter `i`, whose name is the name
of that process, for signals, and 1 for every background. -/
theorem c03_mu (cfg : Cfg V) (ops : List (Op V)) (iter : List String → List String) (t : Tensor V)
    (hw : (write cfg iter (run cfg ops)).2 = .ok t) (param : List V) (hlen : param.length = t.signals.length) :
    ∃ rnorm, ParamModels.muCompute t.procs.length param = .ok rnorm ∧ rnorm.length = t.procs.length ∧
      (∀ (i : Nat) v, param[i]? = some v → rnorm[i]? = some v ∧ t.procs[i]? = t.signals[i]?) ∧
      (∀ (i : Nat) p, t.procs[i]? = some p → p ∉ t.signals → rnorm[i]? = some 1) := by
  obtain ⟨b, e, nd, _⟩ := c03_order cfg ops iter t hw
  have hl : t.procs.length = t.signals.length + b.length := by rw [e, List.length_append]
  refine ⟨param ++ List.replicate (t.procs.length - param.length) 1, ?_, ?_, ?_, ?_⟩
  · unfold ParamModels.muCompute
    rw [if_neg (by omega)]
  · rw [List.length_append, List.length_replicate]; omega
  · intro i v hv
    have hi : i < param.length := (List.getElem?_eq_some_iff.1 hv).1
    exact ⟨by rw [List.getElem?_append_left hi]; exact hv, by rw [e, List.getElem?_append_left (by omega)]⟩
  · intro i p hp hns
    have hi : i < t.procs.length := (List.getElem?_eq_some_iff.1 hp).1
    have hge : t.signals.length ≤ i := by
      by_contra hlt
      rw [e, List.getElem?_append_left (by omega)] at hp
      exact hns (List.mem_of_getElem? hp)
    rw [List.getElem?_append_right (by omega), List.getElem?_replicate]
    rw [if_pos (by omega)]

/-- the hypotheses of the C03 theorems are met: two signals and a background registered out of order, one of them in two
channels -/
example :
    let ops : List (Op ℚ) := [.channel [Ex.ax 1] (some "a") true false, .channel [Ex.ax 1] (some "b") true false,
      .process (Ex.h [1]) "z" "a" true none, .process (Ex.h [1]) "m" "a" false none,
      .process (Ex.h [2]) "k" "b" true none, .process (Ex.h [2]) "z" "b" true none]
    (write Ex.cfg id (run Ex.cfg ops)).2.isOk = true ∧ Spec.accepted Ex.cfg "z" true {} ops ∧
      Spec.accepted Ex.cfg "m" false {} ops := by
  refine ⟨by decide +kernel, ⟨[.channel [Ex.ax 1] (some "a") true false, .channel [Ex.ax 1] (some "b") true false],
    _, _, rfl, ⟨rfl, rfl⟩, by decide +kernel⟩,
    ⟨[.channel [Ex.ax 1] (some "a") true false, .channel [Ex.ax 1] (some "b") true false,
      .process (Ex.h [1]) "z" "a" true none], _, _, rfl, ⟨rfl, rfl⟩, by decide +kernel⟩⟩

/-- a process that is signal in one channel and background in another -/
example :
    let ops : List (Op ℚ) := [.channel [Ex.ax 1] (some "a") true false, .channel [Ex.ax 1] (some "b") true false,
      .process (Ex.h [1]) "z" "a" true none, .process (Ex.h [2]) "z" "b" false none]
    Spec.accepted Ex.cfg "z" true {} ops ∧ Spec.accepted Ex.cfg "z" false {} ops := by
  refine ⟨⟨[.channel [Ex.ax 1] (some "a") true false, .channel [Ex.ax 1] (some "b") true false],
    _, _, rfl, ⟨rfl, rfl⟩, by decide +kernel⟩,
    ⟨[.channel [Ex.ax 1] (some "a") true false, .channel [Ex.ax 1] (some "b") true false,
      .process (Ex.h [1]) "z" "a" true none], _, _, rfl, ⟨rfl, rfl⟩, by decide +kernel⟩⟩

end Verif.Writer
