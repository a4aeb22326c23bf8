import Verif.Model.Write
import Verif.Lemmas.Py
import Mathlib.Tactic.Common

/-! Helper lemmas about the writer: which fields each call can change. -/

namespace Verif.Writer

open Verif.Logk

set_option linter.unusedSectionVars false

namespace M
variable {V α β : Type}

theorem bind_def (m : M V α) (f : α → M V β) (s : State V) :
    (m >>= f) s = match m s with
      | (s', .ok a) => f a s'
      | (s', .error e) => (s', .error e) := rfl

theorem pure_def (a : α) (s : State V) : (Pure.pure a : M V α) s = (s, .ok a) := rfl
theorem pure'_def (a : α) (s : State V) : (M.pure a : M V α) s = (s, .ok a) := rfl
theorem raise_def (e : Err) (s : State V) : (raise e : M V α) s = (s, .error e) := rfl
theorem lift_def (r : Res α) (s : State V) : (lift r : M V α) s = (s, r) := rfl
theorem read_def (s : State V) : (read : M V (State V)) s = (s, .ok s) := rfl
theorem modify_def (f : State V → State V) (s : State V) : modify f s = (f s, .ok ()) := rfl

theorem read_bind (f : State V → M V β) (s : State V) : (read >>= f) s = f s s := rfl
theorem modify_bind (g : State V → State V) (f : Unit → M V β) (s : State V) : (modify g >>= f) s = f () (g s) := rfl

theorem lift_ok_bind (a : α) (f : α → M V β) (s : State V) : (lift (.ok a) >>= f) s = f a s := rfl
theorem lift_error_bind (e : Err) (f : α → M V β) (s : State V) :
    ((lift (.error e) : M V α) >>= f) s = (s, .error e) := rfl
theorem raise_bind (e : Err) (f : α → M V β) (s : State V) : (raise e >>= f) s = (s, .error e) := rfl
theorem pure_bind' (a : α) (f : α → M V β) (s : State V) : (M.pure a >>= f) s = f a s := rfl
theorem pure_bind'' (a : α) (f : α → M V β) (s : State V) : ((Pure.pure a : M V α) >>= f) s = f a s := rfl

theorem raiseIf_bind (c : Bool) (e : Err) (f : Unit → M V β) (s : State V) :
    (raiseIf c e >>= f) s = if c then (s, .error e) else f () s := by
  cases c <;> rfl

/-- `m` keeps the value of `f`. -/
structure Keeps {γ : Type} (f : State V → γ) (m : M V α) : Prop where
  run : ∀ s, f (m s).1 = f s

namespace Keeps
variable {γ : Type} {f : State V → γ}

theorem bind {m : M V α} {g : α → M V β} (hm : Keeps f m) (hg : ∀ a, Keeps f (g a)) : Keeps f (m >>= g) := by
  refine ⟨fun s => ?_⟩
  have h := hm.run s
  rw [bind_def]
  split
  · rename_i s' a he
    rw [he] at h
    rw [(hg a).run s']; exact h
  · rename_i s' e he
    rw [he] at h; exact h

theorem pure (a : α) : Keeps f (M.pure a) := ⟨fun _ => rfl⟩
theorem raise (e : Err) : Keeps f (M.raise e : M V α) := ⟨fun _ => rfl⟩
theorem raiseIf (c : Bool) (e : Err) : Keeps f (M.raiseIf c e) := ⟨fun _ => by cases c <;> rfl⟩
theorem lift (r : Res α) : Keeps f (M.lift r) := ⟨fun _ => rfl⟩
theorem read : Keeps f M.read := ⟨fun _ => rfl⟩
theorem modify {g : State V → State V} (h : ∀ s, f (g s) = f s) : Keeps f (M.modify g) := ⟨fun s => h s⟩

theorem ite {c : Prop} [Decidable c] {m n : M V α} (hm : Keeps f m) (hn : Keeps f n) :
    Keeps f (if c then m else n) := by split <;> assumption

end Keeps

/-- decompose a `Keeps` goal along the statements -/
macro "keeps" : tactic => `(tactic| repeat' first
  | exact Keeps.pure _ | exact Keeps.raise _ | exact Keeps.raiseIf _ _ | exact Keeps.lift _ | exact Keeps.read
  | (with_reducible refine Keeps.bind ?_ fun _ => ?_) | (with_reducible refine Keeps.modify fun _ => ?_)
  | (with_reducible refine Keeps.ite ?_ ?_))

end M

open M

variable {V : Type} [Field V] [LinearOrder V]

/-- the fields that systematics do not touch -/
structure Core (V : Type) where
  signals : List String
  bkgs : List String
  channels : Dict String Chan
  nbinschan : Dict String Nat
  pseudoNames : List String
  dataObs : Dict String (List (FVal V))
  dataVar : Dict String (List (FVal V))
  dataCov : Option (Cov V)
  pseudo : Dict String (Dict String (List (FVal V)))
  norm : Dict String (Dict String (Norm V))
  sumw2 : Dict String (Dict String (List V))

def core (s : State V) : Core V :=
  ⟨s.signals, s.bkgs, s.channels, s.nbinschan, s.pseudoNames, s.dataObs, s.dataVar, s.dataCov, s.pseudo, s.norm,
    s.sumw2⟩

theorem keeps_bookSystematic (name : String) (toCov : Bool) (o : SystOpts) :
    Keeps core (bookSystematic name toCov o : M V Unit) := by
  unfold bookSystematic
  keeps <;> (split <;> [rfl; (try split) <;> rfl])

theorem keeps_bookLogk (cfg : Cfg V) (half : Bool) (logk : LogkIn V) (chan : String) (proc : Option String)
    (name : String) : Keeps core (bookLogk cfg half logk chan proc name) := by
  unfold bookLogk
  cases proc <;> keeps <;> rfl

theorem keeps_computeAsymSyst (cfg : Cfg V) (up down : List V) (name : String) (proc : Option String) (chan : String)
    (symm : Symm) (toCov : Bool) (idx : Option (List Nat)) (o : SystOpts) :
    Keeps core (computeAsymSyst cfg up down name proc chan symm toCov idx o) := by
  unfold computeAsymSyst
  cases symm <;> keeps <;> first | exact keeps_bookLogk .. | exact keeps_bookSystematic .. | rfl

theorem keeps_addSystematic (cfg : Cfg V) (x : SystIn V) (name proc chan : String) (kfac : V) (mirror : Bool)
    (symm : Symm) (toCov asDiff : Bool) (o : SystOpts) :
    Keeps core (addSystematic cfg x name proc chan kfac mirror symm toCov asDiff o) := by
  unfold addSystematic
  cases x <;> keeps <;>
    first | exact keeps_bookLogk .. | exact keeps_bookSystematic .. | exact keeps_computeAsymSyst ..

theorem keeps_normOne (cfg : Cfg V) (name chan : String) (toCov : Bool) (symm : Symm) (o : SystOpts)
    (varName p : String) (u : Unc V) : Keeps core (normOne cfg name chan toCov symm o varName p u) := by
  unfold normOne
  refine Keeps.bind Keeps.read fun s => Keeps.bind (Keeps.lift _) fun nc => Keeps.bind (Keeps.lift _) fun norm => ?_
  dsimp only
  split <;> keeps <;>
    first | exact keeps_bookLogk .. | exact keeps_bookSystematic .. | exact keeps_computeAsymSyst ..

theorem keeps_normLoop (cfg : Cfg V) (name chan : String) (toCov : Bool) (symm : Symm) (o : SystOpts)
    (l : List (String × Unc V)) : ∀ varName, Keeps core (normLoop cfg name chan toCov symm o varName l) := by
  induction l with
  | nil => exact fun v => Keeps.pure v
  | cons x l ih =>
    obtain ⟨p, u⟩ := x
    exact fun v => Keeps.bind (keeps_normOne ..) fun v' => ih v'

theorem keeps_addNormSystematic (cfg : Cfg V) (name : String) (procs : List String) (chan : String)
    (unc : List (Unc V)) (toCov : Bool) (symm : Symm) (o : SystOpts) :
    Keeps core (addNormSystematic cfg name procs chan unc toCov symm o) := by
  unfold addNormSystematic
  keeps
  · exact keeps_normLoop ..
  · exact keeps_bookSystematic ..

/-! `write` changes nothing but the data covariance. -/

theorem keeps_covLoop {γ : Type} (f : State V → γ) (hf : ∀ s c, f { s with dataCov := c } = f s) (N : Nat)
    (cells : List (Cell V)) (l : List String) : ∀ cov, Keeps f (covLoop N cells cov l) := by
  induction l with
  | nil => exact fun _ => Keeps.pure _
  | cons x l ih =>
    intro cov
    unfold covLoop
    keeps
    · exact hf _ _
    · exact ih _

theorem keeps_writeCov {γ : Type} (f : State V → γ) (hf : ∀ s c, f { s with dataCov := c } = f s) (bbb : Bool)
    (N np : Nat) (w2 : Nat → Nat → V) (cells : List (Cell V)) (l : List String) (cov : Option (Cov V)) :
    Keeps f (writeCov bbb N np w2 cells l cov) := by
  cases cov with
  | none => exact Keeps.pure _
  | some c =>
    unfold writeCov
    keeps
    exact keeps_covLoop f hf ..

theorem keeps_write {γ : Type} (f : State V → γ) (hf : ∀ s c, f { s with dataCov := c } = f s) (cfg : Cfg V)
    (iter : List String → List String) : Keeps f (write cfg iter) := by
  unfold write
  keeps
  · exact hf _ _
  · exact keeps_writeCov f hf ..

theorem runOps_append (cfg : Cfg V) (s : State V) (l m : List (Op V)) :
    runOps cfg s (l ++ m) = runOps cfg (runOps cfg s l) m := by
  induction l generalizing s with
  | nil => rfl
  | cons x l ih => exact ih _

/-- invariants by induction over the history -/
theorem runOps_induction {P : State V → Prop} (cfg : Cfg V) (h : ∀ op s, P s → P (step cfg op s).1) (ops : List (Op V)) :
    ∀ s, P s → P (runOps cfg s ops) := by
  induction ops with
  | nil => exact fun _ hs => hs
  | cons op ops ih => exact fun s hs => ih _ (h op s hs)

theorem keeps_addPseudo {γ : Type} (f : State V → γ)
    (hf : ∀ s a b, f { s with pseudoNames := a, pseudo := b } = f s) (cfg : Cfg V) (h : HIn V) (name : Option String)
    (chan : String) : Keeps f (addPseudo cfg h name chan) := by
  unfold addPseudo
  keeps <;> exact hf _ _ _

theorem keeps_addProcess {γ : Type} (f : State V → γ)
    (hf : ∀ s a b c d e g, f { s with signals := a, bkgs := b, logkavg := c, logkhalf := d, norm := e, sumw2 := g } = f s)
    (cfg : Cfg V) (h : HIn V) (name chan : String) (sig : Bool) (vars : Option (HIn V)) :
    Keeps f (addProcess cfg h name chan sig vars) := by
  unfold addProcess
  keeps
  · rename_i s; split <;> exact hf s _ _ _ _ _ _
  · exact hf _ _ _ _ _ _ _
  · exact hf _ _ _ _ _ _ _

theorem keeps_addChannel {γ : Type} (f : State V → γ)
    (hf : ∀ s a b c d e g,
      f { s with nbinschan := a, norm := b, sumw2 := c, channels := d, logkavg := e, logkhalf := g } = f s)
    (axes : List Axis) (name : Option String) (m fl : Bool) : Keeps f (addChannel axes name m fl) := by
  unfold addChannel
  keeps
  exact hf _ _ _ _ _ _ _

theorem keeps_addData {γ : Type} (f : State V → γ) (hf : ∀ s a b, f { s with dataObs := a, dataVar := b } = f s)
    (cfg : Cfg V) (h : HIn V) (chan : String) (vars : Option (HIn V)) : Keeps f (addData cfg h chan vars) := by
  unfold addData
  keeps <;> exact hf _ _ _

/-- systematics and everything else that only changes fields outside `core` -/
theorem keeps_of_core {γ α : Type} {m : M V α} (hm : Keeps core m) (f : State V → γ)
    (hf : ∀ s t, core s = core t → f s = f t) : Keeps f m := ⟨fun s => hf _ _ (hm.run s)⟩

/-- outcome of `add_data` -/
theorem addData_cases (cfg : Cfg V) (h : HIn V) (chan : String) (vars : Option (HIn V)) (s : State V) :
    (∃ e, checkHist cfg s.channels h chan = .error e ∧ addData cfg h chan vars s = (s, .error e)) ∨
    ((∃ c, checkHist cfg s.channels h chan = .ok c) ∧ s.dataObs.has chan = true ∧
      addData cfg h chan vars s = (s, .error .runtime)) ∨
    ((∃ c, checkHist cfg s.channels h chan = .ok c) ∧ s.dataObs.has chan = false ∧
      ((∃ e, (vars.getD h).flatVars false = .error e ∧
        addData cfg h chan vars s = ({ s with dataObs := s.dataObs.set chan (h.flatVals false) }, .error e)) ∨
      (∃ v, (vars.getD h).flatVars false = .ok v ∧
        addData cfg h chan vars s = ({ s with
          dataObs := s.dataObs.set chan (h.flatVals false)
          dataVar := s.dataVar.set chan v }, .ok ())))) := by
  unfold addData
  rw [read_bind]
  cases hc : checkHist cfg s.channels h chan with
  | error e => exact .inl ⟨e, rfl, rfl⟩
  | ok c =>
    refine .inr ?_
    rw [lift_ok_bind, raiseIf_bind]
    cases hh : s.dataObs.has chan with
    | true => exact .inl ⟨⟨c, rfl⟩, rfl, by simp⟩
    | false =>
      refine .inr ⟨⟨c, rfl⟩, rfl, ?_⟩
      simp only [Bool.false_eq_true, if_false, modify_bind]
      cases hv : (vars.getD h).flatVars false with
      | error e => exact .inl ⟨e, rfl, rfl⟩
      | ok v => exact .inr ⟨v, rfl, rfl⟩

/-- outcome of `add_process` -/
theorem addProcess_cases (cfg : Cfg V) (h : HIn V) (name chan : String) (sig : Bool) (vars : Option (HIn V))
    (s : State V) :
    (∃ s', (addProcess cfg h name chan sig vars s).1 = s' ∧ s'.norm = s.norm ∧ s'.sumw2 = s.sumw2 ∧
      ∃ e, (addProcess cfg h name chan sig vars s).2 = .error e) ∨
    (∃ c nc wc n w, checkHist cfg s.channels h chan = .ok c ∧ s.norm.get? chan = some nc ∧ nc.has name = false ∧
      s.sumw2.get? chan = some wc ∧ procNorm cfg h c.flow = .ok n ∧ procSumw2 h vars c.flow = .ok w ∧
      (addProcess cfg h name chan sig vars s).1.norm = s.norm.set chan (nc.set name n) ∧
      (addProcess cfg h name chan sig vars s).1.sumw2 = s.sumw2.set chan (wc.set name w) ∧
      (addProcess cfg h name chan sig vars s).2 = .ok ()) := by
  unfold addProcess
  rw [read_bind]
  cases hc : checkHist cfg s.channels h chan with
  | error e => exact .inl ⟨_, rfl, rfl, rfl, e, rfl⟩
  | ok c =>
    rw [lift_ok_bind]
    unfold Dict.get
    cases hn : s.norm.get? chan with
    | none => exact .inl ⟨_, rfl, rfl, rfl, _, rfl⟩
    | some nc =>
      dsimp only
      rw [lift_ok_bind, raiseIf_bind]
      cases hh : nc.has name with
      | true => exact .inl ⟨_, rfl, rfl, rfl, _, rfl⟩
      | false =>
        simp only [Bool.false_eq_true, if_false, modify_bind, read_bind]
        set s1 := (if sig = true then { s with signals := setAdd s.signals name }
          else { s with bkgs := setAdd s.bkgs name } : State V) with hs1
        have e1 : s1.norm = s.norm := by rw [hs1]; split <;> rfl
        have e2 : s1.sumw2 = s.sumw2 := by rw [hs1]; split <;> rfl
        cases ha : upd2 s1.logkavg chan name [] with
        | error e => exact .inl ⟨_, rfl, e1, e2, _, rfl⟩
        | ok avg =>
          rw [lift_ok_bind]
          cases hb : upd2 s1.logkhalf chan name [] with
          | error e => exact .inl ⟨_, rfl, e1, e2, _, rfl⟩
          | ok half =>
            rw [lift_ok_bind, modify_bind]
            cases hp : procNorm cfg h c.flow with
            | error e => exact .inl ⟨_, rfl, e1, e2, _, rfl⟩
            | ok n =>
              rw [lift_ok_bind]
              cases hw : procSumw2 h vars c.flow with
              | error e => exact .inl ⟨_, rfl, e1, e2, _, rfl⟩
              | ok w =>
                rw [lift_ok_bind, read_bind]
                simp only [upd2, e1, e2, hn, lift_ok_bind]
                cases hww : s.sumw2.get? chan with
                | none => exact .inl ⟨_, rfl, rfl, rfl, _, rfl⟩
                | some wc =>
                  refine .inr ⟨c, nc, wc, n, w, rfl, rfl, hh, rfl, hp, hw, ?_, ?_, ?_⟩ <;> rfl

theorem mapM_eq_some_iff {α β : Type} {f : α → Option β} {g : β → α} (hfg : ∀ x y, f x = some y ↔ x = g y)
    {l : List α} {v : List β} : l.mapM f = some v ↔ l = v.map g := by
  induction l generalizing v with
  | nil => cases v <;> simp
  | cons x l ih =>
    rw [List.mapM_cons]
    simp only [Option.bind_eq_bind, Option.pure_def, Option.bind_eq_some_iff, Option.some.injEq]
    constructor
    · rintro ⟨y, hy, ys, hys, rfl⟩
      rw [List.map_cons, (hfg _ _).1 hy, ih.1 hys]
    · intro h
      cases v with
      | nil => simp at h
      | cons y v =>
        simp only [List.map_cons, List.cons.injEq] at h
        exact ⟨y, (hfg _ _).2 h.1, v, ih.2 h.2, rfl⟩

theorem toFin?_eq_some {x : FVal V} {v : V} : x.toFin? = some v ↔ x = .fin v := by
  cases x <;> simp [FVal.toFin?]

theorem finites_eq_some {l : List (FVal V)} {v : List V} : finites l = some v ↔ l = v.map .fin :=
  mapM_eq_some_iff fun _ _ => toFin?_eq_some

theorem finitesCsr_eq_some {l : List (Nat × FVal V)} {v : List (Nat × V)} :
    (l.mapM fun e => (e.2.toFin?).map fun r => (e.1, r)) = some v ↔ l = v.map fun e => (e.1, .fin e.2) := by
  refine mapM_eq_some_iff fun x y => ?_
  obtain ⟨i, x⟩ := x
  obtain ⟨j, y⟩ := y
  cases x <;> simp [FVal.toFin?]

theorem find?_filter_of_nodup {α : Type} {l : List (Nat × α)} (hnd : (l.map (·.1)).Nodup) (q : Nat × α → Bool) (i : Nat) :
    (l.filter q).find? (fun e => e.1 == i) = (l.find? fun e => e.1 == i).filter q := by
  induction l with
  | nil => rfl
  | cons x l ih =>
    rw [List.map_cons, List.nodup_cons] at hnd
    rw [List.find?_cons]
    by_cases hx : x.1 == i
    · rw [hx]
      dsimp only
      by_cases hq : q x
      · rw [List.filter_cons_of_pos hq, List.find?_cons, hx]; simp [Option.filter, hq]
      · rw [List.filter_cons_of_neg hq, ih hnd.2]
        have : l.find? (fun e => e.1 == i) = none := by
          rw [List.find?_eq_none]
          intro e he hei
          exact hnd.1 (List.mem_map.2 ⟨e, he, (eq_of_beq hei).trans (eq_of_beq hx).symm⟩)
        simp [Option.filter, this, hq]
    · rw [Bool.not_eq_true] at hx
      rw [hx]
      dsimp only
      by_cases hq : q x
      · rw [List.filter_cons_of_pos hq, List.find?_cons, hx]; exact ih hnd.2
      · rw [List.filter_cons_of_neg hq]; exact ih hnd.2

end Verif.Writer
