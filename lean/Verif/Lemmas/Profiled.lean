import Verif.Props.WriterBookings
import Verif.Props.WriterTotal

/-! Helper lemmas: the same calls with and without `add_to_data_covariance` fill the same tables. -/

namespace Verif.Writer

open Verif.Logk M

set_option linter.unusedSectionVars false

variable {V : Type} [Field V] [LinearOrder V]

/-- the same call without `add_to_data_covariance` -/
def Spec.profiled : Op V → Op V
  | .syst x name proc chan kfac mirror symm _ asDiff o => .syst x name proc chan kfac mirror symm false asDiff o
  | .normSyst name procs chan unc _ symm o => .normSyst name procs chan unc false symm o
  | op => op

/-- states that differ in the sets of nuisances only -/
def SameTables (s s' : State V) : Prop :=
  ∃ a b c d e, s' = { s with standard := a, noConstraint := b, noi := c, groups := d, covariance := e }

/-- whatever `m` accepts, `m'` accepts with the same result and tables -/
structure Follows {α : Type} (m m' : M V α) : Prop where
  run : ∀ s s', SameTables s s' → ∀ s1 a, m s = (s1, .ok a) → ∃ s1', m' s' = (s1', .ok a) ∧ SameTables s1 s1'

namespace Follows
variable {α β : Type}

theorem bind {m m' : M V α} {f f' : α → M V β} (h : Follows m m') (hf : ∀ a, Follows (f a) (f' a)) : Follows (m >>= f) (m' >>= f') := by
  refine ⟨fun s s' hs s1 b hb => ?_⟩
  obtain ⟨s2, a, h1, h2⟩ := bind_ok hb
  obtain ⟨s2', h3, h4⟩ := h.run s s' hs s2 a h1
  obtain ⟨s1', h5, h6⟩ := (hf a).run s2 s2' h4 s1 b h2
  exact ⟨s1', by rw [bind_def, h3]; exact h5, h6⟩

theorem read_bind {f f' : State V → M V β} (h : ∀ s a b c d e, Follows (f s) (f' { s with standard := a, noConstraint := b, noi := c, groups := d, covariance := e })) :
    Follows (M.read >>= f) (M.read >>= f') := by
  refine ⟨fun s s' hs s1 r hr => ?_⟩
  obtain ⟨a, b, c, d, e, rfl⟩ := id hs
  rw [M.read_bind] at hr ⊢
  exact (h s a b c d e).run _ _ hs _ _ hr

theorem pure (a : α) : Follows (M.pure a : M V α) (M.pure a) := by
  refine ⟨fun s s' hs s1 b hb => ?_⟩
  cases hb
  exact ⟨s', rfl, hs⟩

theorem raise (e : Err) {m' : M V α} : Follows (M.raise e : M V α) m' := ⟨fun s s' hs s1 b hb => by cases hb⟩

theorem lift (r : Res α) : Follows (M.lift r : M V α) (M.lift r) := by
  refine ⟨fun s s' hs s1 b hb => ?_⟩
  cases hb
  exact ⟨s', rfl, hs⟩

theorem raiseIf {c c' : Bool} {e : Err} (h : c' = true → c = true) : Follows (M.raiseIf c e : M V Unit) (M.raiseIf c' e) := by
  cases c with
  | true => exact raise e
  | false =>
    cases c' with
    | true => cases h rfl
    | false => exact pure ()

theorem modify {f f' : State V → State V} (h : ∀ s s', SameTables s s' → SameTables (f s) (f' s')) : Follows (M.modify f) (M.modify f') := by
  refine ⟨fun s s' hs s1 b hb => ?_⟩
  cases hb
  exact ⟨_, rfl, h s s' hs⟩

end Follows

theorem follows_bookSystematic (name : String) (toCov toCov' : Bool) (o o' : SystOpts) (h : (toCov' && o'.noi) = true → (toCov && o.noi) = true) :
    Follows (bookSystematic name toCov o : M V Unit) (bookSystematic name toCov' o') := by
  unfold bookSystematic
  refine Follows.bind (.raiseIf h) fun _ => Follows.bind (.modify ?_) fun _ => Follows.bind (.modify ?_) fun _ => .modify ?_
  · rintro s _ ⟨a, b, c, d, e, rfl⟩
    split_ifs <;> exact ⟨_, _, _, _, _, rfl⟩
  · rintro s _ ⟨a, b, c, d, e, rfl⟩
    split_ifs <;> exact ⟨_, _, _, _, _, rfl⟩
  · rintro s _ ⟨a, b, c, d, e, rfl⟩
    split_ifs <;> exact ⟨_, _, _, _, _, rfl⟩

theorem follows_bookLogk (cfg : Cfg V) (half : Bool) (logk : LogkIn V) (chan : String) (proc : Option String) (name : String) :
    Follows (bookLogk cfg half logk chan proc name) (bookLogk cfg half logk chan proc name) := by
  unfold bookLogk
  refine Follows.read_bind fun s a b c d e => Follows.bind (.lift _) fun p => Follows.bind (.lift _) fun nc => Follows.bind (.lift _) fun n =>
    Follows.bind (.lift _) fun l => ?_
  cases half
  · exact Follows.bind (.lift _) fun _ => .modify (by rintro s _ ⟨a, b, c, d, e, rfl⟩; exact ⟨_, _, _, _, _, rfl⟩)
  · exact Follows.bind (.lift _) fun _ => .modify (by rintro s _ ⟨a, b, c, d, e, rfl⟩; exact ⟨_, _, _, _, _, rfl⟩)

theorem follows_asym (cfg : Cfg V) (up down : List V) (name : String) (proc : Option String) (chan : String) (symm : Symm) (toCov : Bool)
    (idx : Option (List Nat)) (o : SystOpts) :
    Follows (computeAsymSyst cfg up down name proc chan symm toCov idx o) (computeAsymSyst cfg up down name proc chan symm false idx o) := by
  unfold computeAsymSyst
  refine Follows.bind (.lift _) fun avg => ?_
  have hb : ∀ n, Follows (bookSystematic n toCov o : M V Unit) (bookSystematic n false o) := fun n => follows_bookSystematic n _ _ _ _ fun h => by cases h
  cases symm with
  | conservative => exact .pure _
  | average => exact .pure _
  | linear => exact Follows.bind (.lift _) fun _ => Follows.bind (follows_bookLogk ..) fun _ => Follows.bind (hb _) fun _ => .pure _
  | quadratic => exact Follows.bind (.lift _) fun _ => Follows.bind (follows_bookLogk ..) fun _ => Follows.bind (hb _) fun _ => .pure _
  | none =>
    exact Follows.bind (.raiseIf fun h => by cases h) fun _ => Follows.bind (.modify (by rintro s _ ⟨a, b, c, d, e, rfl⟩; exact ⟨_, _, _, _, _, rfl⟩)) fun _ =>
      Follows.bind (.lift _) fun _ => Follows.bind (follows_bookLogk ..) fun _ => .pure _

theorem effType_normal {cfg : Cfg V} (h : cfg.systType = .normal) (b : Bool) : effType cfg b = .normal := by
  cases b
  · exact h
  · rfl

theorem follows_normOne {cfg : Cfg V} (hst : cfg.systType = .normal) (name chan : String) (toCov : Bool) (symm : Symm) (o : SystOpts) (v p : String)
    (u : Unc V) : Follows (normOne cfg name chan toCov symm o v p u) (normOne cfg name chan false symm o v p u) := by
  unfold normOne
  rw [effType_normal hst, effType_normal hst]
  refine Follows.read_bind fun s a b c d e => Follows.bind (.lift _) fun nc => Follows.bind (.lift _) fun norm => ?_
  dsimp only
  split
  · exact Follows.bind (.lift _) fun _ => Follows.bind (follows_bookLogk ..) fun _ => .pure _
  · exact Follows.bind (.lift _) fun _ => Follows.bind (.lift _) fun _ => Follows.bind (follows_asym ..) fun _ => Follows.bind (follows_bookLogk ..) fun _ => .pure _
  · exact .raise _

theorem follows_normLoop {cfg : Cfg V} (hst : cfg.systType = .normal) (name chan : String) (toCov : Bool) (symm : Symm) (o : SystOpts)
    (l : List (String × Unc V)) : ∀ v, Follows (normLoop cfg name chan toCov symm o v l) (normLoop cfg name chan false symm o v l) := by
  induction l with
  | nil => exact fun v => .pure v
  | cons x l ih => exact fun v => Follows.bind (follows_normOne hst ..) fun v => ih v

theorem follows_syst {cfg : Cfg V} (hst : cfg.systType = .normal) (x : SystIn V) (name proc chan : String) (k : V) (mirror : Bool) (symm : Symm)
    (toCov diff : Bool) (o : SystOpts) :
    Follows (addSystematic cfg x name proc chan k mirror symm toCov diff o) (addSystematic cfg x name proc chan k mirror symm false diff o) := by
  have hb : ∀ n, Follows (bookSystematic n toCov o : M V Unit) (bookSystematic n false o) := fun n => follows_bookSystematic n _ _ _ _ fun h => by cases h
  unfold addSystematic
  rw [effType_normal hst, effType_normal hst]
  refine Follows.read_bind fun s a b c d e => Follows.bind (.lift _) fun nc => Follows.bind (.lift _) fun norm => Follows.bind (.lift _) fun c => ?_
  dsimp only
  cases x with
  | single h =>
    exact Follows.bind (.raiseIf id) fun _ => Follows.bind (.lift _) fun _ => Follows.bind (.lift _) fun _ => Follows.bind (.lift _) fun _ =>
      Follows.bind (.lift _) fun _ => Follows.bind (follows_bookLogk ..) fun _ => hb _
  | pair h h' =>
    exact Follows.bind (.lift _) fun _ => Follows.bind (.lift _) fun _ => Follows.bind (.lift _) fun _ => Follows.bind (.lift _) fun _ =>
      Follows.bind (.lift _) fun _ => Follows.bind (.lift _) fun _ => Follows.bind (.lift _) fun _ => Follows.bind (.lift _) fun _ =>
      Follows.bind (follows_asym ..) fun _ => Follows.bind (follows_bookLogk ..) fun _ => hb _

/-- one call -/
theorem follows_step {cfg : Cfg V} (hst : cfg.systType = .normal) (op : Op V) (hw : ∀ it, op ≠ .write it) :
    Follows (step cfg op) (step cfg (Spec.profiled op)) := by
  have hm : ∀ {f : State V → State V}, (∀ s a b c d e, ∃ a' b' c' d' e', f { s with standard := a, noConstraint := b, noi := c, groups := d, covariance := e } =
      { f s with standard := a', noConstraint := b', noi := c', groups := d', covariance := e' }) → Follows (M.modify f) (M.modify f) := by
    intro f h
    refine .modify ?_
    rintro s _ ⟨a, b, c, d, e, rfl⟩
    exact h s a b c d e
  cases op with
  | channel axes name masked flow =>
    show Follows (addChannel axes name masked flow) (addChannel axes name masked flow)
    unfold addChannel
    exact Follows.bind (.raiseIf id) fun _ => Follows.read_bind fun s a b c d e => hm fun s a b c d e => ⟨_, _, _, _, _, rfl⟩
  | data h chan vars =>
    show Follows (addData cfg h chan vars) (addData cfg h chan vars)
    unfold addData
    exact Follows.read_bind fun s a b c d e => Follows.bind (.lift _) fun _ => Follows.bind (.raiseIf id) fun _ =>
      Follows.bind (hm fun s a b c d e => ⟨_, _, _, _, _, rfl⟩) fun _ => Follows.bind (.lift _) fun _ => hm fun s a b c d e => ⟨_, _, _, _, _, rfl⟩
  | dataCov C => exact hm fun s a b c d e => ⟨_, _, _, _, _, rfl⟩
  | pseudo h name chan =>
    show Follows (addPseudo cfg h name chan) (addPseudo cfg h name chan)
    unfold addPseudo
    exact Follows.read_bind fun s a b c d e => Follows.bind (.lift _) fun _ => Follows.bind (hm fun s a b c d e => ⟨_, _, _, _, _, rfl⟩) fun _ =>
      Follows.bind (hm fun s a b c d e => ⟨_, _, _, _, _, rfl⟩) fun _ => Follows.read_bind fun s a b c d e => Follows.bind (.lift _) fun _ => Follows.bind (.raiseIf id) fun _ =>
      Follows.bind (.lift _) fun _ => hm fun s a b c d e => ⟨_, _, _, _, _, rfl⟩
  | process h name chan signal vars =>
    show Follows (addProcess cfg h name chan signal vars) (addProcess cfg h name chan signal vars)
    unfold addProcess
    exact Follows.read_bind fun s a b c d e => Follows.bind (.lift _) fun _ => Follows.bind (.lift _) fun _ => Follows.bind (.raiseIf id) fun _ =>
      Follows.bind (hm fun s a b c d e => by cases signal <;> exact ⟨_, _, _, _, _, rfl⟩) fun _ => Follows.read_bind fun s a b c d e =>
      Follows.bind (.lift _) fun _ => Follows.bind (.lift _) fun _ => Follows.bind (hm fun s a b c d e => ⟨_, _, _, _, _, rfl⟩) fun _ =>
      Follows.bind (.lift _) fun _ => Follows.bind (.lift _) fun _ => Follows.read_bind fun s a b c d e => Follows.bind (.lift _) fun _ => Follows.bind (.lift _) fun _ =>
      hm fun s a b c d e => ⟨_, _, _, _, _, rfl⟩
  | syst x name proc chan k mirror symm toCov diff o => exact follows_syst hst ..
  | normSyst name procs chan unc toCov symm o =>
    show Follows (addNormSystematic cfg name procs chan unc toCov symm o) (addNormSystematic cfg name procs chan unc false symm o)
    unfold addNormSystematic
    exact Follows.bind (.raiseIf id) fun _ => Follows.bind (follows_normLoop hst ..) fun v => follows_bookSystematic v _ _ _ _ fun h => by cases h
  | write it => exact absurd rfl (hw it)

theorem SameTables.channels {s s' : State V} (h : SameTables s s') : s'.channels = s.channels := by
  obtain ⟨a, b, c, d, e, rfl⟩ := h; rfl

/-- a history of accepted calls -/
theorem follows_run {cfg : Cfg V} (hst : cfg.systType = .normal) (ops : List (Op V)) (hw : ∀ it, Op.write it ∉ ops) : ∀ s s', SameTables s s' →
    Spec.allOk cfg s ops → SameTables (runOps cfg s ops) (runOps cfg s' (ops.map Spec.profiled)) ∧ Spec.allOk cfg s' (ops.map Spec.profiled) := by
  induction ops with
  | nil => exact fun s s' h _ => ⟨h, trivial⟩
  | cons op ops ih =>
    intro s s' h hok
    obtain ⟨s1, h1, h2⟩ := (follows_step hst op fun it e => hw it (by rw [e]; exact List.mem_cons_self)).run s s' h (step cfg op s).1 () (Prod.ext rfl hok.1)
    obtain ⟨h3, h4⟩ := ih (fun it hi => hw it (List.mem_cons_of_mem _ hi)) _ _ h2 hok.2
    have e1 : (step cfg (Spec.profiled op) s').1 = s1 := by rw [h1]
    refine ⟨?_, by rw [h1], ?_⟩
    · show SameTables _ (runOps cfg (step cfg (Spec.profiled op) s').1 _)
      rw [e1]; exact h3
    · rw [e1]; exact h4

/-! the constraint asked for together with `add_to_data_covariance` -/

theorem asym_free (cfg : Cfg V) (up down : List V) (name : String) (proc : Option String) (chan : String) (symm : Symm)
    (idx : Option (List Nat)) (o : SystOpts) (b : Bool) :
    computeAsymSyst cfg up down name proc chan symm true idx o = computeAsymSyst cfg up down name proc chan symm true idx { o with constrained := b } := by
  cases symm <;> rfl

theorem normOne_free (cfg : Cfg V) (name chan : String) (symm : Symm) (o : SystOpts) (b : Bool) (v p : String) (u : Unc V) :
    normOne cfg name chan true symm o v p u = normOne cfg name chan true symm { o with constrained := b } v p u := by
  cases u with
  | num u => rfl
  | list l =>
    match l with
    | [u0, u1] => cases symm <;> rfl
    | [] => rfl
    | [_] => rfl
    | _ :: _ :: _ :: _ => rfl

theorem normLoop_free (cfg : Cfg V) (name chan : String) (symm : Symm) (o : SystOpts) (b : Bool) (l : List (String × Unc V)) :
    ∀ v, normLoop cfg name chan true symm o v l = normLoop cfg name chan true symm { o with constrained := b } v l := by
  induction l with
  | nil => exact fun v => rfl
  | cons x l ih =>
    intro v
    unfold normLoop
    rw [normOne_free _ _ _ _ _ b]
    congr 1
    funext v
    exact ih v

theorem step_free (cfg : Cfg V) (o : SystOpts) (b : Bool) :
    (∀ x name proc chan k mirror symm diff, step cfg (.syst x name proc chan k mirror symm true diff o) =
      step cfg (.syst x name proc chan k mirror symm true diff { o with constrained := b })) ∧
    ∀ name procs chan unc symm, step cfg (.normSyst name procs chan unc true symm o) = step cfg (.normSyst name procs chan unc true symm { o with constrained := b }) := by
  constructor
  · intro x name proc chan k mirror symm diff
    cases x with
    | single h => rfl
    | pair h h' => cases symm <;> rfl
  · intro name procs chan unc symm
    show addNormSystematic cfg name procs chan unc true symm o = addNormSystematic cfg name procs chan unc true symm { o with constrained := b }
    unfold addNormSystematic
    rw [normLoop_free _ _ _ _ _ b]
    rfl

end Verif.Writer
