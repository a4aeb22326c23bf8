import Verif.Lemmas.WriteTotal
import Verif.Props.WriterSparse

/-! The writer in sparse mode, given dense histograms, holds what the writer in dense mode holds, with the variations
reduced to their non-zero entries. -/

namespace Verif.Writer

open Verif.Logk M

set_option linter.unusedSectionVars false

variable {V : Type} [Field V] [LinearOrder V]

/-! ### Dictionaries -/

/-- a function applied to the values -/
def mapV {α β : Type} (f : α → β) (d : Dict String α) : Dict String β := d.map fun e => (e.1, f e.2)

theorem mapV_get? {α β : Type} (f : α → β) (d : Dict String α) (k : String) : (mapV f d).get? k = (d.get? k).map f := by
  induction d with
  | nil => rfl
  | cons e d ih =>
    show (if e.1 = k then some (f e.2) else Dict.get? (mapV f d) k) = Option.map f (if e.1 = k then some e.2 else Dict.get? d k)
    split_ifs
    · rfl
    · exact ih

theorem mapV_has {α β : Type} (f : α → β) (d : Dict String α) (k : String) : (mapV f d).has k = d.has k := by
  unfold Dict.has
  rw [mapV_get?, Option.isSome_map]

theorem mapV_get {α β : Type} (f : α → β) (d : Dict String α) (k : String) : (mapV f d).get k = (d.get k).map f := by
  unfold Dict.get
  rw [mapV_get?]
  cases Dict.get? d k <;> rfl

theorem mapV_set {α β : Type} (f : α → β) (d : Dict String α) (k : String) (v : α) :
    (mapV f d).set k (f v) = mapV f (d.set k v) := by
  induction d with
  | nil => rfl
  | cons e d ih =>
    show (if e.1 = k then (e.1, f v) :: mapV f d else (e.1, f e.2) :: Dict.set (mapV f d) k (f v)) =
      mapV f (if e.1 = k then (e.1, v) :: d else e :: Dict.set d k v)
    split_ifs
    · rfl
    · rw [ih]; rfl

theorem mapV_upd2 {α β : Type} (f : α → β) (d : Dict String (Dict String α)) (a b : String) (v : α) :
    upd2 (mapV (mapV f) d) a b (f v) = (upd2 d a b v).map (mapV (mapV f)) := by
  unfold upd2
  rw [mapV_get?]
  cases Dict.get? d a with
  | none => rfl
  | some i =>
    show Except.ok _ = Except.ok _
    rw [mapV_set, mapV_set]

theorem mapV_upd3 {α β : Type} (f : α → β) (d : Dict String (Dict String (Dict String α))) (a b c : String) (v : α) :
    upd3 (mapV (mapV (mapV f)) d) a b c (f v) = (upd3 d a b c v).map (mapV (mapV (mapV f))) := by
  unfold upd3
  rw [mapV_get?]
  cases Dict.get? d a with
  | none => rfl
  | some i =>
    show (upd2 (mapV (mapV f) i) b c (f v)).map _ = ((upd2 i b c v).map _).map _
    rw [mapV_upd2]
    cases upd2 i b c v with
    | error e => rfl
    | ok j =>
      show Except.ok (Dict.set _ a _) = Except.ok (mapV _ (Dict.set d a j))
      rw [mapV_set]

/-! ### States -/

/-- a variation reduced to its non-zero entries -/
def LogkE.thin : LogkE V → LogkE V
  | .dense l => .sparse (nonzeros l)
  | .sparse l => .sparse l

/-- all variations reduced to their non-zero entries -/
def State.thin (s : State V) : State V :=
  { s with logkavg := mapV (mapV (mapV LogkE.thin)) s.logkavg, logkhalf := mapV (mapV (mapV LogkE.thin)) s.logkhalf }

/-- the second call does to the reduced state what the first one does to the state -/
def SimAt {α : Type} (s : State V) (m m' : M V α) : Prop := m' s.thin = ((m s).1.thin, (m s).2)

theorem SimAt.bind {α β : Type} {s : State V} {m m' : M V α} {f f' : α → M V β} (h : SimAt s m m')
    (hf : ∀ a, (m s).2 = .ok a → SimAt (m s).1 (f a) (f' a)) : SimAt s (m >>= f) (m' >>= f') := by
  unfold SimAt at *
  show M.bind m' f' s.thin = ((M.bind m f s).1.thin, (M.bind m f s).2)
  unfold M.bind
  rw [h]
  generalize hm : m s = r at *
  obtain ⟨s1, r⟩ := r
  cases r with
  | error e => rfl
  | ok a => exact hf a rfl

theorem SimAt.read {β : Type} {s : State V} {f f' : State V → M V β} (h : SimAt s (f s) (f' s.thin)) :
    SimAt s (M.read >>= f) (M.read >>= f') := h

theorem SimAt.pure {α : Type} {s : State V} (a : α) : SimAt s (M.pure a) (M.pure a) := rfl

theorem SimAt.raise {α : Type} {s : State V} (e : Err) : SimAt s (M.raise e : M V α) (M.raise e) := rfl

theorem SimAt.raiseIf {s : State V} (b : Bool) (e : Err) : SimAt s (M.raiseIf b e) (M.raiseIf b e) := by
  cases b <;> rfl

theorem SimAt.lift {α : Type} {s : State V} (r : Res α) : SimAt s (M.lift r) (M.lift r) := rfl

theorem SimAt.lift_bind {α α' β : Type} {s : State V} {r : Res α} {r' : Res α'} {g : α → α'} (hr : r' = r.map g)
    {f : α → M V β} {f' : α' → M V β} (h : ∀ a, r = .ok a → SimAt s (f a) (f' (g a))) :
    SimAt s (M.lift r >>= f) (M.lift r' >>= f') := by
  subst hr
  cases r with
  | error e => rfl
  | ok a => exact h a rfl

theorem SimAt.modify {s : State V} {f f' : State V → State V} (h : f' s.thin = (f s).thin) :
    SimAt s (M.modify f) (M.modify f') := by
  unfold SimAt M.modify
  rw [h]

/-! ### Calls -/

/-- the same writer in sparse mode -/
def Cfg.toSparse (cfg : Cfg V) : Cfg V := { cfg with sparse := true }

variable {cfg : Cfg V} (hd : cfg.sparse = false)
include hd

theorem bookedLogk_thin (n : Norm V) (lk : LogkIn V) :
    bookedLogk cfg.toSparse n lk = (bookedLogk cfg n lk).map LogkE.thin := by
  cases lk with
  | tup l => rfl
  | arr l => cases n with
    | csr _ _ => rfl
    | dense n =>
      simp only [bookedLogk, bind, Except.bind, hd, Cfg.toSparse]
      cases zipB maskNorm n l <;> rfl

theorem sim_bookLogk (half : Bool) (lk : LogkIn V) (chan : String) (proc : Option String) (name : String) (s : State V) :
    SimAt s (bookLogk cfg half lk chan proc name) (bookLogk cfg.toSparse half lk chan proc name) := by
  unfold bookLogk
  refine .read ?_
  refine .bind (.lift _) fun p _ => .bind (.lift _) fun nc _ => .bind (.lift _) fun norm _ =>
    .lift_bind (g := LogkE.thin) (bookedLogk_thin hd _ _) fun e _ => ?_
  cases half
  · exact .lift_bind (g := mapV (mapV (mapV LogkE.thin))) (mapV_upd3 _ _ _ _ _ _) fun d _ => .modify rfl
  · exact .lift_bind (g := mapV (mapV (mapV LogkE.thin))) (mapV_upd3 _ _ _ _ _ _) fun d _ => .modify rfl

omit hd in
theorem sim_bookSystematic (name : String) (toCov : Bool) (o : SystOpts) (s : State V) :
    SimAt s (bookSystematic name toCov o) (bookSystematic name toCov o) := by
  unfold bookSystematic
  refine .bind (.raiseIf _ _) fun _ _ => .bind (.modify ?_) fun _ _ => .bind (.modify ?_) fun _ _ => .modify ?_
  · cases toCov
    · cases o.constrained <;> rfl
    · rfl
  · cases o.noi <;> rfl
  · cases toCov <;> rfl

theorem sim_computeAsymSyst (up down : List V) (name : String) (proc : Option String) (chan : String) (symm : Symm)
    (toCov : Bool) (idx : Option (List Nat)) (o : SystOpts) (s : State V) :
    SimAt s (computeAsymSyst cfg up down name proc chan symm toCov idx o)
      (computeAsymSyst cfg.toSparse up down name proc chan symm toCov idx o) := by
  unfold computeAsymSyst
  refine .bind (.lift _) fun avg _ => ?_
  cases symm with
  | conservative => exact .pure _
  | average => exact .pure _
  | linear =>
    exact .bind (.lift _) fun _ _ => .bind (sim_bookLogk hd _ _ _ _ _ _) fun _ _ => .bind (sim_bookSystematic _ _ _ _)
      fun _ _ => .pure _
  | quadratic =>
    exact .bind (.lift _) fun _ _ => .bind (sim_bookLogk hd _ _ _ _ _ _) fun _ _ => .bind (sim_bookSystematic _ _ _ _)
      fun _ _ => .pure _
  | none =>
    exact .bind (.raiseIf _ _) fun _ _ => .bind (.modify rfl) fun _ _ => .bind (.lift _) fun _ _ => .bind (sim_bookLogk hd _ _ _ _ _ _) fun _ _ => .pure _

theorem sim_addSystematic (x : SystIn V) (name proc chan : String) (kfac : V) (mirror : Bool) (symm : Symm)
    (toCov asDiff : Bool) (o : SystOpts) (s : State V) :
    SimAt s (addSystematic cfg x name proc chan kfac mirror symm toCov asDiff o)
      (addSystematic cfg.toSparse x name proc chan kfac mirror symm toCov asDiff o) := by
  unfold addSystematic
  refine .read (.bind (.lift _) fun nc _ => .bind (.lift _) fun norm _ => .bind (.lift _) fun c _ => ?_)
  cases x with
  | pair u d =>
    exact .bind (.lift _) fun _ _ => .bind (.lift _) fun _ _ => .bind (.lift _) fun _ _ => .bind (.lift _) fun _ _ =>
      .bind (.lift _) fun _ _ => .bind (.lift _) fun _ _ => .bind (.lift _) fun _ _ => .bind (.lift _) fun _ _ =>
      .bind (sim_computeAsymSyst hd _ _ _ _ _ _ _ _ _ _) fun _ _ => .bind (sim_bookLogk hd _ _ _ _ _ _) fun _ _ =>
      sim_bookSystematic _ _ _ _
  | single h =>
    exact .bind (.raiseIf _ _) fun _ _ => .bind (.lift _) fun _ _ => .bind (.lift _) fun _ _ => .bind (.lift _) fun _ _ =>
      .bind (.lift _) fun _ _ => .bind (sim_bookLogk hd _ _ _ _ _ _) fun _ _ => sim_bookSystematic _ _ _ _

theorem sim_normOne (name chan : String) (toCov : Bool) (symm : Symm) (o : SystOpts) (varName p : String) (u : Unc V)
    (s : State V) : SimAt s (normOne cfg name chan toCov symm o varName p u)
      (normOne cfg.toSparse name chan toCov symm o varName p u) := by
  unfold normOne
  refine .read (.bind (.lift _) fun nc _ => .bind (.lift _) fun norm _ => ?_)
  cases u with
  | num u => exact .bind (.lift _) fun _ _ => .bind (sim_bookLogk hd _ _ _ _ _ _) fun _ _ => .pure _
  | list l => match l with
    | [u0, u1] =>
      exact .bind (.lift _) fun _ _ => .bind (.lift _) fun _ _ => .bind (sim_computeAsymSyst hd _ _ _ _ _ _ _ _ _ _) fun _ _ => .bind (sim_bookLogk hd _ _ _ _ _ _) fun _ _ => .pure _
    | [] => exact .raise _
    | [_] => exact .raise _
    | _ :: _ :: _ :: _ => exact .raise _

theorem sim_normLoop (name chan : String) (toCov : Bool) (symm : Symm) (o : SystOpts) (l : List (String × Unc V)) :
    ∀ (varName : String) (s : State V), SimAt s (normLoop cfg name chan toCov symm o varName l)
      (normLoop cfg.toSparse name chan toCov symm o varName l) := by
  induction l with
  | nil => exact fun _ _ => .pure _
  | cons x l ih =>
    obtain ⟨p, u⟩ := x
    exact fun v s => .bind (sim_normOne hd _ _ _ _ _ _ _ _ _) fun _ _ => ih _ _

theorem sim_addNormSystematic (name : String) (procs : List String) (chan : String) (unc : List (Unc V)) (toCov : Bool)
    (symm : Symm) (o : SystOpts) (s : State V) : SimAt s (addNormSystematic cfg name procs chan unc toCov symm o)
      (addNormSystematic cfg.toSparse name procs chan unc toCov symm o) := by
  unfold addNormSystematic
  exact .bind (.raiseIf _ _) fun _ _ => .bind (sim_normLoop hd _ _ _ _ _ _ _ _) fun _ _ => sim_bookSystematic _ _ _ _

theorem sim_addProcess (h : HIn V) (hh : h.isSparse = false) (name chan : String) (sig : Bool) (vars : Option (HIn V))
    (s : State V) : SimAt s (addProcess cfg h name chan sig vars) (addProcess cfg.toSparse h name chan sig vars) := by
  unfold addProcess
  have hp : ∀ flow, procNorm cfg.toSparse h flow = procNorm cfg h flow := by
    intro flow
    unfold procNorm
    rw [hh, Bool.and_false, Bool.and_false]
    rfl
  refine .read (.bind (.lift _) fun c _ => .bind (.lift _) fun nc _ => .bind (.raiseIf _ _) fun _ _ =>
    .bind (.modify (by cases sig <;> rfl)) fun _ _ => .read ?_)
  refine .lift_bind (g := mapV (mapV (mapV LogkE.thin))) (mapV_upd2 (mapV LogkE.thin) _ _ _ []) fun a _ =>
    .lift_bind (g := mapV (mapV (mapV LogkE.thin))) (mapV_upd2 (mapV LogkE.thin) _ _ _ []) fun b _ =>
    .bind (.modify rfl) fun _ _ => ?_
  rw [hp]
  exact .bind (.lift _) fun _ _ => .bind (.lift _) fun _ _ => .read (.bind (.lift _) fun _ _ => .bind (.lift _) fun _ _ =>
    .modify rfl)

omit hd in
theorem sim_addChannel (axes : List Axis) (name : Option String) (masked flow : Bool) (s : State V) :
    SimAt s (addChannel axes name masked flow) (addChannel axes name masked flow) := by
  unfold addChannel
  refine .bind (.raiseIf _ _) fun _ _ => .read (.modify ?_)
  unfold State.thin
  dsimp only
  rw [← mapV_set, ← mapV_set]
  rfl

omit hd in
theorem sim_addData (h : HIn V) (chan : String) (vars : Option (HIn V)) (s : State V) :
    SimAt s (addData cfg h chan vars) (addData cfg.toSparse h chan vars) := by
  unfold addData
  exact .read (.bind (.lift _) fun _ _ => .bind (.raiseIf _ _) fun _ _ => .bind (.modify rfl) fun _ _ =>
    .bind (.lift _) fun _ _ => .modify rfl)

omit hd in
theorem sim_addPseudo (h : HIn V) (name : Option String) (chan : String) (s : State V) :
    SimAt s (addPseudo cfg h name chan) (addPseudo cfg.toSparse h name chan) := by
  unfold addPseudo
  refine .read (.bind (.lift _) fun _ _ => .bind (.modify rfl) fun _ _ => .bind (.modify rfl) fun _ _ => .read
    (.bind (.lift _) fun _ _ => .bind (.raiseIf _ _) fun _ _ => .bind (.lift _) fun _ _ => .modify rfl))

/-- a call that registers something; templates are dense -/
def Spec.plain : Op V → Prop
  | .process h .. => h.isSparse = false
  | .write _ => False
  | _ => True

theorem sim_step (op : Op V) (hp : Spec.plain op) (s : State V) : SimAt s (step cfg op) (step cfg.toSparse op) := by
  cases op with
  | channel _ _ _ _ => exact sim_addChannel _ _ _ _ _
  | data _ _ _ => exact sim_addData _ _ _ _
  | dataCov _ => exact .modify rfl
  | pseudo _ _ _ => exact sim_addPseudo _ _ _ _
  | process h _ _ _ _ => exact sim_addProcess hd h hp _ _ _ _ _
  | syst _ _ _ _ _ _ _ _ _ _ => exact sim_addSystematic hd _ _ _ _ _ _ _ _ _ _ _
  | normSyst _ _ _ _ _ _ _ => exact sim_addNormSystematic hd _ _ _ _ _ _ _ _
  | write _ => exact hp.elim

theorem sim_runOps (ops : List (Op V)) (hp : ∀ op ∈ ops, Spec.plain op) : ∀ s : State V,
    runOps cfg.toSparse s.thin ops = (runOps cfg s ops).thin := by
  induction ops with
  | nil => exact fun _ => rfl
  | cons op ops ih =>
    intro s
    have := sim_step hd op (hp op (by simp)) s
    unfold SimAt at this
    show runOps cfg.toSparse (step cfg.toSparse op s.thin).1 ops = _
    rw [this]
    exact ih (fun o ho => hp o (List.mem_cons_of_mem _ ho)) _

theorem sim_run (ops : List (Op V)) (hp : ∀ op ∈ ops, Spec.plain op) : run cfg.toSparse ops = (run cfg ops).thin :=
  sim_runOps hd ops hp {}

theorem fresh_thin (ops : List (Op V)) (hp : ∀ op ∈ ops, Spec.plain op) : ∀ s : State V,
    Spec.freshNames cfg s ops → Spec.freshNames cfg.toSparse s.thin ops := by
  induction ops with
  | nil => exact fun _ _ => trivial
  | cons op ops ih =>
    intro s h
    have hs := sim_step hd op (hp op (by simp)) s
    unfold SimAt at hs
    refine ⟨fun chan hc => ?_, ?_⟩
    · refine h.1 chan ?_
      cases op <;> exact hc
    · rw [hs]
      exact ih (fun o ho => hp o (List.mem_cons_of_mem _ ho)) _ h.2

end Verif.Writer
