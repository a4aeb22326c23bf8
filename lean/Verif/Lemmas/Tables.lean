import Verif.Lemmas.Write

/-! The tables of templates and variations of the writer, and invariants relating them. -/

namespace Verif.Writer

open Verif.Logk M

set_option linter.unusedSectionVars false

variable {V : Type} [Field V] [LinearOrder V]

/-- `d[a][b]` if both keys exist -/
def Spec.at2 {ν : Type} (d : Dict String (Dict String ν)) (a b : String) : Option ν := (d.get? a).bind (·.get? b)

/-- `d[a][b][c]` if all keys exist -/
def Spec.at3 {ν : Type} (d : Dict String (Dict String (Dict String ν))) (a b c : String) : Option ν :=
  (Spec.at2 d a b).bind (·.get? c)

theorem upd2_at {ν : Type} {d d' : Dict String (Dict String ν)} {a b : String} {v : ν} (h : upd2 d a b v = .ok d')
    (a' b' : String) : Spec.at2 d' a' b' = if a' = a ∧ b' = b then some v else Spec.at2 d a' b' := by
  unfold upd2 at h
  split at h
  · rename_i i hi
    cases h
    unfold Spec.at2
    rw [Dict.get?_set]
    by_cases ha : a = a'
    · subst ha
      rw [if_pos rfl, hi]
      simp only [Option.bind_some, Dict.get?_set, true_and]
      by_cases hb : b = b'
      · subst hb; simp
      · rw [if_neg hb, if_neg (fun e => hb e.symm)]
    · rw [if_neg ha, if_neg (fun e => ha e.1.symm)]
  · cases h

theorem upd3_at {ν : Type} {d d' : Dict String (Dict String (Dict String ν))} {a b c : String} {v : ν}
    (h : upd3 d a b c v = .ok d') (a' b' c' : String) :
    Spec.at3 d' a' b' c' = if a' = a ∧ b' = b ∧ c' = c then some v else Spec.at3 d a' b' c' := by
  unfold upd3 at h
  split at h
  · rename_i i hi
    cases hu : upd2 i b c v with
    | error e => rw [hu] at h; cases h
    | ok i' =>
      rw [hu] at h
      cases h
      have := upd2_at hu b' c'
      unfold Spec.at3
      show ((Dict.get? (Dict.set d a i') a').bind (·.get? b')).bind (·.get? c') = _
      rw [Dict.get?_set]
      by_cases ha : a = a'
      · subst ha
        rw [if_pos rfl]
        simp only [true_and]
        show Spec.at2 i' b' c' = _
        rw [this]
        unfold Spec.at2
        rw [hi]; rfl
      · rw [if_neg ha, if_neg (fun e => ha e.1.symm)]; rfl
  · cases h

/-- a successful `book_logk` changes one entry -/
theorem bookLogk_ok {cfg : Cfg V} {logk : LogkIn V} {chan p name : String} {s s' : State V}
    (h : bookLogk cfg false logk chan (some p) name s = (s', .ok ())) :
    ∃ n e, Spec.at2 s.norm chan p = some n ∧ bookedLogk cfg n logk = .ok e ∧ s'.norm = s.norm ∧
      s'.logkhalf = s.logkhalf ∧
      ∀ c q m, Spec.at3 s'.logkavg c q m = if c = chan ∧ q = p ∧ m = name then some e else Spec.at3 s.logkavg c q m := by
  unfold bookLogk at h
  rw [read_bind] at h
  obtain ⟨p', hp, h⟩ := lift_bind_ok h
  cases hp
  obtain ⟨nc, hnc, h⟩ := lift_bind_ok h
  obtain ⟨n, hn, h⟩ := lift_bind_ok h
  obtain ⟨e, he, h⟩ := lift_bind_ok h
  simp only [Bool.false_eq_true, if_false] at h
  obtain ⟨d, hd, h⟩ := lift_bind_ok h
  cases h
  refine ⟨n, e, ?_, he, rfl, rfl, fun c q m => upd3_at hd c q m⟩
  unfold Dict.get at hnc hn
  unfold Spec.at2
  split at hnc
  · rename_i v hv; cases hnc; rw [hv]
    split at hn
    · rename_i w hw; cases hn; exact hw
    · cases hn
  · cases hnc


/-! ### Invariants -/

namespace M

/-- `m` preserves a property of the state -/
structure Pres {α : Type} (I : State V → Prop) (m : M V α) : Prop where
  run : ∀ s, I s → I (m s).1

namespace Pres
variable {α β : Type} {I : State V → Prop}

theorem bind {m : M V α} {g : α → M V β} (hm : Pres I m) (hg : ∀ a, Pres I (g a)) : Pres I (m >>= g) := by
  refine ⟨fun s hs => ?_⟩
  have h := hm.run s hs
  rw [bind_def]
  split
  · rename_i s' a he
    rw [he] at h
    exact (hg a).run s' h
  · rename_i s' e he
    rw [he] at h; exact h

theorem of_keeps {γ : Type} {f : State V → γ} {m : M V α} (h : Keeps f m) (hI : ∀ s s', f s' = f s → I s → I s') :
    Pres I m := ⟨fun s hs => hI s _ (h.run s) hs⟩

theorem pure (a : α) : Pres I (M.pure a) := ⟨fun _ h => h⟩
theorem lift (r : Res α) : Pres I (M.lift r) := ⟨fun _ h => h⟩
theorem raise (e : Err) : Pres I (M.raise e : M V α) := ⟨fun _ h => h⟩
theorem raiseIf (c : Bool) (e : Err) : Pres I (M.raiseIf c e) := ⟨fun _ h => by cases c <;> exact h⟩

end Pres
end M

/-- the templates satisfy `P`, and every stored variation belongs to a stored template and satisfies `Q` with it -/
structure Tables (P : Norm V → Prop) (Q : Norm V → LogkE V → Prop) (s : State V) : Prop where
  norm : ∀ c p n, Spec.at2 s.norm c p = some n → P n
  avg : ∀ c p m e, Spec.at3 s.logkavg c p m = some e → ∃ n, Spec.at2 s.norm c p = some n ∧ Q n e
  half : ∀ c p m e, Spec.at3 s.logkhalf c p m = some e → ∃ n, Spec.at2 s.norm c p = some n ∧ Q n e

def tab (s : State V) := (s.norm, s.logkavg, s.logkhalf)

theorem Tables.of_tab {P : Norm V → Prop} {Q : Norm V → LogkE V → Prop} {s s' : State V} (h : tab s' = tab s)
    (hs : Tables P Q s) : Tables P Q s' := by
  simp only [tab, Prod.mk.injEq] at h
  obtain ⟨h1, h2, h3⟩ := h
  exact ⟨by rw [h1]; exact hs.1, by rw [h1, h2]; exact hs.2, by rw [h1, h3]; exact hs.3⟩

section
variable {cfg : Cfg V} {P : Norm V → Prop} {Q : Norm V → LogkE V → Prop}

theorem get_at2 {ν : Type} {d : Dict String (Dict String ν)} {a b : String} {i : Dict String ν} {v : ν}
    (h1 : d.get a = .ok i) (h2 : i.get b = .ok v) : Spec.at2 d a b = some v := by
  unfold Dict.get at h1 h2
  unfold Spec.at2
  split at h1
  · rename_i v hv; cases h1; rw [hv]
    split at h2
    · rename_i w hw; cases h2; exact hw
    · cases h2
  · cases h1

/-- while the systematics of template `n` are booked -/
def During (P : Norm V → Prop) (Q : Norm V → LogkE V → Prop) (chan p : String) (n : Norm V) (s : State V) : Prop :=
  Tables P Q s ∧ Spec.at2 s.norm chan p = some n

theorem During.of_tab {chan p : String} {n : Norm V} {s s' : State V} (h : tab s' = tab s)
    (hs : During P Q chan p n s) : During P Q chan p n s' := by
  refine ⟨hs.1.of_tab h, ?_⟩
  simp only [tab, Prod.mk.injEq] at h
  rw [h.1]; exact hs.2

theorem keepsTab_bookSystematic (name : String) (toCov : Bool) (o : SystOpts) :
    Keeps tab (bookSystematic name toCov o : M V Unit) := by
  unfold bookSystematic
  keeps <;> (split <;> [rfl; (try split) <;> rfl])

variable (hQ : ∀ n lk e, P n → bookedLogk cfg n (wrap n.idx lk) = .ok e → Q n e)
include hQ

theorem pres_bookLogk (half : Bool) (chan p name : String) (n : Norm V) (lk : List V) (proc : Option String)
    (hproc : ∀ q, proc = some q → q = p) :
    Pres (During P Q chan p n) (bookLogk cfg half (wrap n.idx lk) chan proc name) := by
  refine ⟨fun s hs => ?_⟩
  unfold bookLogk
  rw [read_bind]
  cases proc with
  | none => exact hs
  | some q =>
    have := hproc q rfl
    subst this
    rw [lift_ok_bind]
    cases hnc : s.norm.get chan with
    | error e => exact hs
    | ok nc =>
      rw [lift_ok_bind]
      cases hn : nc.get q with
      | error e => exact hs
      | ok n' =>
        have hat := get_at2 hnc hn
        rw [hs.2] at hat
        cases hat
        rw [lift_ok_bind]
        cases he : bookedLogk cfg n (wrap n.idx lk) with
        | error e => exact hs
        | ok e =>
          rw [lift_ok_bind]
          have hq := hQ n lk e (hs.1.norm _ _ _ hs.2) he
          cases half with
          | true =>
            simp only [if_true]
            cases hd : upd3 s.logkhalf chan q name e with
            | error _ => exact hs
            | ok d =>
              refine ⟨⟨hs.1.1, hs.1.2, fun c p' m e' h => ?_⟩, hs.2⟩
              have h' : Spec.at3 d c p' m = some e' := h
              rw [upd3_at hd] at h'
              split at h'
              · rename_i hc
                obtain ⟨rfl, rfl, rfl⟩ := hc
                cases h'
                exact ⟨n, hs.2, hq⟩
              · exact hs.1.3 c p' m e' h'
          | false =>
            simp only [Bool.false_eq_true, if_false]
            cases hd : upd3 s.logkavg chan q name e with
            | error _ => exact hs
            | ok d =>
              refine ⟨⟨hs.1.1, fun c p' m e' h => ?_, hs.1.3⟩, hs.2⟩
              have h' : Spec.at3 d c p' m = some e' := h
              rw [upd3_at hd] at h'
              split at h'
              · rename_i hc
                obtain ⟨rfl, rfl, rfl⟩ := hc
                cases h'
                exact ⟨n, hs.2, hq⟩
              · exact hs.1.2 c p' m e' h'

theorem pres_computeAsymSyst (up down : List V) (name : String) (chan p : String) (n : Norm V) (proc : Option String)
    (hproc : ∀ q, proc = some q → q = p) (symm : Symm) (toCov : Bool) (o : SystOpts) :
    Pres (During P Q chan p n) (computeAsymSyst cfg up down name proc chan symm toCov n.idx o) := by
  unfold computeAsymSyst
  refine Pres.bind (Pres.lift _) fun avg => ?_
  have hbs : ∀ nm, Pres (During P Q chan p n) (bookSystematic nm toCov o : M V Unit) := fun nm =>
    Pres.of_keeps (keepsTab_bookSystematic ..) fun _ _ h hs => During.of_tab h hs
  cases symm with
  | conservative => exact Pres.pure _
  | average => exact Pres.pure _
  | linear | quadratic =>
    exact Pres.bind (Pres.lift _) fun _ => Pres.bind (pres_bookLogk hQ _ _ _ _ _ _ _ hproc) fun _ =>
      Pres.bind (hbs _) fun _ => Pres.pure _
  | none =>
    refine Pres.bind (Pres.raiseIf _ _) fun _ => Pres.bind ⟨fun s hs => ?_⟩ fun _ => Pres.bind (Pres.lift _) fun _ =>
      Pres.bind (pres_bookLogk hQ _ _ _ _ _ _ _ hproc) fun _ => Pres.pure _
    exact During.of_tab (s := s) rfl hs

theorem pres_addSystematic (x : SystIn V) (name proc chan : String) (kfac : V) (mirror : Bool)
    (symm : Symm) (toCov asDiff : Bool) (o : SystOpts) :
    Pres (Tables P Q) (addSystematic cfg x name proc chan kfac mirror symm toCov asDiff o) := by
  refine ⟨fun s hs => ?_⟩
  unfold addSystematic
  rw [read_bind]
  cases hnc : s.norm.get chan with
  | error e => exact hs
  | ok nc =>
    rw [lift_ok_bind]
    cases hn : nc.get proc with
    | error e => exact hs
    | ok n =>
      rw [lift_ok_bind]
      have hbs : ∀ nm, Pres (During P Q chan proc n) (bookSystematic nm toCov o : M V Unit) := fun nm =>
        Pres.of_keeps (keepsTab_bookSystematic ..) fun _ _ h hs => During.of_tab h hs
      have hbl : ∀ lk nm, Pres (During P Q chan proc n) (bookLogk cfg false (wrap n.idx lk) chan (some proc) nm) :=
        fun lk nm => pres_bookLogk hQ _ _ _ _ _ _ _ (by rintro q h; exact (Option.some.inj h).symm)
      refine ((Pres.run (I := During P Q chan proc n) ?_) s ⟨hs, get_at2 hnc hn⟩).1
      refine Pres.bind (Pres.lift _) fun c => ?_
      cases x with
      | pair hu hd =>
        exact Pres.bind (Pres.lift _) fun _ => Pres.bind (Pres.lift _) fun _ => Pres.bind (Pres.lift _) fun _ =>
          Pres.bind (Pres.lift _) fun _ => Pres.bind (Pres.lift _) fun _ => Pres.bind (Pres.lift _) fun _ =>
          Pres.bind (Pres.lift _) fun _ => Pres.bind (Pres.lift _) fun _ =>
          Pres.bind (pres_computeAsymSyst hQ _ _ _ _ _ _ _ (by rintro q h; exact (Option.some.inj h).symm) _ _ _) fun _ =>
          Pres.bind (hbl _ _) fun _ => hbs _
      | single h =>
        exact Pres.bind (Pres.raiseIf _ _) fun _ => Pres.bind (Pres.lift _) fun _ => Pres.bind (Pres.lift _) fun _ =>
          Pres.bind (Pres.lift _) fun _ => Pres.bind (Pres.lift _) fun _ => Pres.bind (hbl _ _) fun _ => hbs _

theorem pres_normOne (name chan : String) (toCov : Bool) (symm : Symm) (o : SystOpts)
    (varName p : String) (u : Unc V) : Pres (Tables P Q) (normOne cfg name chan toCov symm o varName p u) := by
  refine ⟨fun s hs => ?_⟩
  unfold normOne
  rw [read_bind]
  cases hnc : s.norm.get chan with
  | error e => exact hs
  | ok nc =>
    rw [lift_ok_bind]
    cases hn : nc.get p with
    | error e => exact hs
    | ok n =>
      rw [lift_ok_bind]
      have hbl : ∀ lk nm, Pres (During P Q chan p n) (bookLogk cfg false (wrap n.idx lk) chan (some p) nm) :=
        fun lk nm => pres_bookLogk hQ _ _ _ _ _ _ _ (by rintro q h; exact (Option.some.inj h).symm)
      refine ((Pres.run (I := During P Q chan p n) ?_) s ⟨hs, get_at2 hnc hn⟩).1
      split
      · exact Pres.bind (Pres.lift _) fun _ => Pres.bind (hbl _ _) fun _ => Pres.pure _
      · exact Pres.bind (Pres.lift _) fun _ => Pres.bind (Pres.lift _) fun _ =>
          Pres.bind (pres_computeAsymSyst hQ _ _ _ _ _ _ _ (by rintro q h; cases h) _ _ _) fun _ =>
          Pres.bind (hbl _ _) fun _ => Pres.pure _
      · exact Pres.raise _

theorem pres_normLoop (name chan : String) (toCov : Bool) (symm : Symm) (o : SystOpts)
    (l : List (String × Unc V)) : ∀ varName, Pres (Tables P Q) (normLoop cfg name chan toCov symm o varName l) := by
  induction l with
  | nil => exact fun v => Pres.pure v
  | cons x l ih =>
    obtain ⟨p, u⟩ := x
    exact fun v => Pres.bind (pres_normOne hQ ..) fun v' => ih v'

theorem pres_addNormSystematic (name : String) (procs : List String) (chan : String)
    (unc : List (Unc V)) (toCov : Bool) (symm : Symm) (o : SystOpts) :
    Pres (Tables P Q) (addNormSystematic cfg name procs chan unc toCov symm o) := by
  unfold addNormSystematic
  exact Pres.bind (Pres.raiseIf _ _) fun _ => Pres.bind (pres_normLoop hQ ..) fun _ =>
    Pres.of_keeps (keepsTab_bookSystematic ..) fun _ _ h hs => Tables.of_tab h hs

omit hQ
theorem at2_of_set {ν : Type} {d : Dict String (Dict String ν)} {a c p : String} {i : Dict String ν} :
    Spec.at2 (d.set a i) c p = if a = c then i.get? p else Spec.at2 d c p := by
  unfold Spec.at2
  rw [Dict.get?_set]
  split <;> rfl

theorem at3_of_set_nil {ν : Type} {d : Dict String (Dict String (Dict String ν))} {a c p m : String} :
    Spec.at3 (d.set a []) c p m = if a = c then none else Spec.at3 d c p m := by
  unfold Spec.at3
  rw [at2_of_set]
  split <;> rfl

theorem pres_addChannel (axes : List Axis) (name : Option String) (masked flow : Bool) :
    Pres (Tables P Q) (addChannel axes name masked flow) := by
  refine ⟨fun s hs => ?_⟩
  unfold addChannel
  rw [raiseIf_bind]
  split
  · exact hs
  rw [read_bind]
  refine ⟨fun c p n h => ?_, fun c p m e h => ?_, fun c p m e h => ?_⟩
  · have h' : Spec.at2 (s.norm.set (name.getD s!"ch{s.channels.length}") []) c p = some n := h
    rw [at2_of_set] at h'
    split at h'
    · cases h'
    · exact hs.norm c p n h'
  · have h' : Spec.at3 (s.logkavg.set (name.getD s!"ch{s.channels.length}") []) c p m = some e := h
    rw [at3_of_set_nil] at h'
    split at h'
    · cases h'
    · rename_i hne
      obtain ⟨n, hn, hq⟩ := hs.avg c p m e h'
      refine ⟨n, ?_, hq⟩
      show Spec.at2 (s.norm.set (name.getD s!"ch{s.channels.length}") []) c p = some n
      rw [at2_of_set, if_neg hne]; exact hn
  · have h' : Spec.at3 (s.logkhalf.set (name.getD s!"ch{s.channels.length}") []) c p m = some e := h
    rw [at3_of_set_nil] at h'
    split at h'
    · cases h'
    · rename_i hne
      obtain ⟨n, hn, hq⟩ := hs.half c p m e h'
      refine ⟨n, ?_, hq⟩
      show Spec.at2 (s.norm.set (name.getD s!"ch{s.channels.length}") []) c p = some n
      rw [at2_of_set, if_neg hne]; exact hn

theorem at3_upd2_nil {ν : Type} {d d' : Dict String (Dict String (Dict String ν))} {a b c p m : String}
    (h : upd2 d a b [] = .ok d') : Spec.at3 d' c p m = if c = a ∧ p = b then none else Spec.at3 d c p m := by
  unfold Spec.at3
  rw [upd2_at h]
  split <;> rfl

theorem pres_addProcess (h : HIn V) (name chan : String) (sig : Bool) (vars : Option (HIn V))
    (hP : ∀ n flow, procNorm cfg h flow = .ok n → P n) :
    Pres (Tables P Q) (addProcess cfg h name chan sig vars) := by
  refine ⟨fun s hs => ?_⟩
  unfold addProcess
  rw [read_bind]
  cases hc : checkHist cfg s.channels h chan with
  | error e => exact hs
  | ok c =>
    rw [lift_ok_bind]
    cases hn : s.norm.get chan with
    | error e => exact hs
    | ok nc =>
      rw [lift_ok_bind, raiseIf_bind]
      split
      · exact hs
      rename_i hh
      have hnew : Spec.at2 s.norm chan name = none := by
        unfold Dict.get at hn
        unfold Spec.at2
        split at hn
        · rename_i v hv; cases hn; rw [hv]
          rw [Bool.not_eq_true, Dict.has_eq_false_iff] at hh
          exact hh
        · cases hn
      rw [modify_bind, read_bind]
      set s1 := (if sig = true then { s with signals := setAdd s.signals name }
          else { s with bkgs := setAdd s.bkgs name } : State V) with hs1
      have hs1t : Tables P Q s1 := hs.of_tab (by rw [hs1]; split <;> rfl)
      have e1 : s1.norm = s.norm := by rw [hs1]; split <;> rfl
      rw [← e1] at hnew
      clear_value s1
      cases ha : upd2 s1.logkavg chan name [] with
      | error e => exact hs1t
      | ok avg =>
        rw [lift_ok_bind]
        cases hb : upd2 s1.logkhalf chan name [] with
        | error e => exact hs1t
        | ok half =>
          rw [lift_ok_bind, modify_bind]
          have hne : ∀ {c p m : String} {e : LogkE V}, Spec.at3 avg c p m = some e →
              ¬(c = chan ∧ p = name) ∧ Spec.at3 s1.logkavg c p m = some e := by
            intro c p m e h
            rw [at3_upd2_nil ha] at h
            split at h
            · cases h
            · rename_i hx; exact ⟨hx, h⟩
          have hne' : ∀ {c p m : String} {e : LogkE V}, Spec.at3 half c p m = some e →
              ¬(c = chan ∧ p = name) ∧ Spec.at3 s1.logkhalf c p m = some e := by
            intro c p m e h
            rw [at3_upd2_nil hb] at h
            split at h
            · cases h
            · rename_i hx; exact ⟨hx, h⟩
          have hs2 : Tables P Q { s1 with logkavg := avg, logkhalf := half } :=
            ⟨hs1t.1, fun c p m e h => hs1t.2 c p m e (hne h).2, fun c p m e h => hs1t.3 c p m e (hne' h).2⟩
          cases hp : procNorm cfg h c.flow with
          | error e => exact hs2
          | ok n =>
            rw [lift_ok_bind]
            cases hw : procSumw2 h vars c.flow with
            | error e => exact hs2
            | ok w =>
              rw [lift_ok_bind, read_bind]
              cases hun : upd2 s1.norm chan name n with
              | error e =>
                exact hs2
              | ok d =>
                simp only [lift_ok_bind]
                cases huw : upd2 s1.sumw2 chan name w with
                | error e => exact hs2
                | ok d2 =>
                  refine ⟨fun c' p m h' => ?_, fun c' p m e h' => ?_, fun c' p m e h' => ?_⟩
                  · have h2 : Spec.at2 d c' p = some m := h'
                    rw [upd2_at hun] at h2
                    split at h2
                    · cases h2; exact hP n c.flow hp
                    · exact hs1t.norm c' p m h2
                  · have h2 := hne (show Spec.at3 avg c' p m = some e from h')
                    obtain ⟨n', hn', hq⟩ := hs1t.avg c' p m e h2.2
                    refine ⟨n', ?_, hq⟩
                    show Spec.at2 d c' p = some n'
                    rw [upd2_at hun, if_neg h2.1]; exact hn'
                  · have h2 := hne' (show Spec.at3 half c' p m = some e from h')
                    obtain ⟨n', hn', hq⟩ := hs1t.half c' p m e h2.2
                    refine ⟨n', ?_, hq⟩
                    show Spec.at2 d c' p = some n'
                    rw [upd2_at hun, if_neg h2.1]; exact hn'

/-- Every history keeps the tables well formed. -/
theorem tables_run (hQ : ∀ n lk e, P n → bookedLogk cfg n (wrap n.idx lk) = .ok e → Q n e) (ops : List (Op V))
    (hP : ∀ h name chan sig vars, Op.process h name chan sig vars ∈ ops → ∀ n flow, procNorm cfg h flow = .ok n → P n) :
    Tables P Q (run cfg ops) := by
  unfold run
  have h0 : Tables P Q ({} : State V) :=
    ⟨fun _ _ _ h => (nomatch h), fun _ _ _ _ h => (nomatch h), fun _ _ _ _ h => (nomatch h)⟩
  generalize ({} : State V) = s at h0
  induction ops generalizing s with
  | nil => exact h0
  | cons op ops ih =>
    refine ih (fun h name chan sig vars hm => hP h name chan sig vars (by simp [hm])) _ ?_
    have k : ∀ {m : M V Unit}, Keeps tab m → Tables P Q (m s).1 := fun hk => h0.of_tab (hk.run s)
    cases op with
    | dataCov c => exact k ⟨fun _ => rfl⟩
    | pseudo h name c => exact k (keeps_addPseudo _ (fun _ _ _ => rfl) ..)
    | data h c vars => exact k (keeps_addData _ (fun _ _ _ => rfl) ..)
    | write it => exact k (Keeps.bind (keeps_write _ (fun _ _ => rfl) ..) fun _ => Keeps.pure _)
    | channel a n m f => exact (pres_addChannel a n m f).run s h0
    | process h name c sig vars =>
      exact (pres_addProcess h name c sig vars (hP h name c sig vars (by simp))).run s h0
    | normSyst name procs c u t sy o => exact (pres_addNormSystematic hQ ..).run s h0
    | syst x name proc c kf m sy t d o => exact (pres_addSystematic hQ ..).run s h0

end

end Verif.Writer
