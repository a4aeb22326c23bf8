import Verif.Lemmas.Origin
import Verif.Props.WriterTotal

/-! Fitted channels are stored in the order of their calls, before the masked ones; the covariance stored. -/

namespace Verif.Writer

open Verif.Logk M

set_option linter.unusedSectionVars false

variable {V : Type} [Field V] [LinearOrder V]

/-- the fitted channel a call registers -/
def fittedCall : Op V → Option (String × Chan)
  | .channel axes (some n) false f => some (n, ⟨axes, false, f⟩)
  | _ => none

theorem unmasked_step {cfg : Cfg V} (op : Op V) (s : State V) (hl : LayInv s)
    (hf : ∀ chan, Spec.addsChannel s chan op → s.channels.has chan = false) (hok : (step cfg op s).2 = .ok ())
    (hn : ∀ a m f, op ≠ .channel a none m f) :
    (step cfg op s).1.channels.filter (fun kv => !kv.2.masked) =
      s.channels.filter (fun kv => !kv.2.masked) ++ [op].filterMap fittedCall := by
  have key : ∀ {x : M V Unit}, Keeps State.channels x → (x s).1.channels.filter (fun kv => !kv.2.masked) = s.channels.filter (fun kv => !kv.2.masked) ++ [] :=
    fun hx => by rw [hx.run s, List.append_nil]
  have kc : ∀ {x : M V Unit}, Keeps core x → Keeps State.channels x := fun hx =>
    keeps_of_core hx _ fun _ _ e => congrArg Core.channels e
  cases op with
  | dataCov c => exact key ⟨fun _ => rfl⟩
  | write it => exact key (Keeps.bind (keeps_write _ (fun _ _ => rfl) ..) fun _ => Keeps.pure _)
  | pseudo h' name c => exact key (keeps_addPseudo _ (fun _ _ _ => rfl) ..)
  | data h' c vars => exact key (keeps_addData _ (fun _ _ _ => rfl) ..)
  | process h' name c sig vars => exact key (keeps_addProcess _ (fun _ _ _ _ _ _ _ => rfl) ..)
  | syst x name p c k mi sy t d o => exact key (kc (keeps_addSystematic ..))
  | normSyst name procs c u t sy o => exact key (kc (keeps_addNormSystematic ..))
  | channel axes name ma f =>
    cases name with
    | none => exact absurd rfl (hn _ _ _)
    | some nm =>
      have hff : s.channels.has nm = false := hf _ rfl
      simp only [step] at hok ⊢
      unfold addChannel at hok ⊢
      rw [raiseIf_bind] at hok ⊢
      split at hok
      · cases hok
      rename_i hc
      rw [if_neg hc, read_bind]
      show (insertChannel s.channels nm ⟨axes, ma, f⟩).filter _ = _
      have hk : nm ∉ Dict.keys s.channels := fun h => by
        rw [Dict.mem_keys_iff_has, hff] at h; cases h
      rw [insertChannel_fresh _ _ _ hk hl.nodup]
      cases ma with
      | true => simp [fittedCall]
      | false =>
        simp only [Bool.false_eq_true, if_false, List.filter_append, List.filter_filter, Bool.and_self]
        simp [fittedCall]

theorem unmasked_run {cfg : Cfg V} : ∀ (ops : List (Op V)) (s : State V), LayInv s → Spec.freshNames cfg s ops →
    Spec.allOk cfg s ops → (∀ a m f, Op.channel a none m f ∉ ops) →
    (runOps cfg s ops).channels.filter (fun kv => !kv.2.masked) = s.channels.filter (fun kv => !kv.2.masked) ++ ops.filterMap fittedCall
  | [], s, _, _, _, _ => by rw [List.filterMap_nil, List.append_nil]; rfl
  | op :: ops, s, hl, hf, hok, hn => by
    rw [runOps, unmasked_run ops _ (layInv_step cfg op s hl hf.1) hf.2 hok.2 fun a m f hm => hn a m f (List.mem_cons_of_mem _ hm),
      unmasked_step op s hl hf.1 hok.1 fun a m f e => hn a m f (e ▸ List.mem_cons_self), List.append_assoc,
      ← List.filterMap_append, List.singleton_append]

theorem readerFrom_append (d e : Dict String Chan) : ∀ k, readerFrom k (d ++ e) =
    readerFrom k d ++ readerFrom (k + (d.map fun x => prod (dims x.2.flow x.2.axes)).sum) e := by
  induction d with
  | nil => intro k; rfl
  | cons x d ih =>
    intro k
    obtain ⟨n, c⟩ := x
    show _ :: readerFrom _ (d ++ e) = _
    rw [ih]
    simp [readerFrom, Nat.add_assoc]

/-- masked channels come after the fitted ones -/
theorem sorted_split {d : Dict String Chan} (h : d.Pairwise fun a b => a.2.masked = true → b.2.masked = true) :
    d = d.filter (fun kv => !kv.2.masked) ++ d.filter fun kv => kv.2.masked := by
  induction d with
  | nil => rfl
  | cons x d ih =>
    rw [List.pairwise_cons] at h
    cases hx : x.2.masked with
    | false =>
      simp only [List.filter_cons, hx, Bool.not_false, if_true, Bool.false_eq_true, if_false, List.cons_append]
      rw [← ih h.2]
    | true =>
      have h1 : d.filter (fun kv => !kv.2.masked) = [] := by
        rw [List.filter_eq_nil_iff]
        intro a ha
        simp [h.1 a ha hx]
      simp only [List.filter_cons, hx, Bool.not_true, Bool.false_eq_true, if_false, if_true, h1, List.nil_append]
      rw [List.filter_eq_self.2 fun a ha => h.1 a ha hx]

/-- the covariance a call gives -/
def covOf : Op V → Option (Cov V)
  | .dataCov C => some C
  | _ => none

theorem dataCov_last {cfg : Cfg V} (ops : List (Op V)) (hw : ∀ it, Op.write it ∉ ops) (s : State V) :
    (runOps cfg s ops).dataCov = (ops.filterMap covOf).getLast?.or s.dataCov := by
  induction ops generalizing s with
  | nil => rfl
  | cons op ops ih =>
    have key : ∀ {m : M V Unit}, Keeps (fun s : State V => s.dataCov) m → (m s).1.dataCov = s.dataCov := fun hm => hm.run s
    have kc : ∀ {m : M V Unit}, Keeps core m → Keeps (fun s : State V => s.dataCov) m := fun hm =>
      keeps_of_core hm _ fun s t e => congrArg Core.dataCov e
    rw [runOps, ih (fun it h => hw it (List.mem_cons_of_mem _ h))]
    have hs : (step cfg op s).1.dataCov = (covOf op).or s.dataCov := by
      cases op with
      | channel axes name m f => exact key (keeps_addChannel _ (fun _ _ _ _ _ _ _ => rfl) ..)
      | dataCov c => rfl
      | data h c vars => exact key (keeps_addData _ (fun _ _ _ => rfl) ..)
      | pseudo h name c => exact key (keeps_addPseudo _ (fun _ _ _ => rfl) ..)
      | process h name c sig vars => exact key (keeps_addProcess _ (fun _ _ _ _ _ _ _ => rfl) ..)
      | syst x name proc c k m sy t d o => exact key (kc (keeps_addSystematic ..))
      | normSyst name procs c u t sy o => exact key (kc (keeps_addNormSystematic ..))
      | write it => exact absurd List.mem_cons_self (hw it)
    rw [hs]
    cases hc : covOf op with
    | none => rw [List.filterMap_cons_none hc]; rfl
    | some C =>
      rw [List.filterMap_cons_some hc, List.getLast?_cons]
      cases (ops.filterMap covOf).getLast? <;> rfl

end Verif.Writer
