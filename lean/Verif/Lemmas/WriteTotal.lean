import Verif.Props.WriterAtomic
import Verif.Props.WriterBookings

/-! Lemmas on when `write` succeeds: sizes of everything that is stored in the writer. -/

namespace Verif.Writer

open Verif.Logk M

set_option linter.unusedSectionVars false

variable {V : Type} [Field V] [LinearOrder V]

/-! ### Specification -/

/-- a histogram has as many contents and variances as the axes have bins -/
def Spec.fullSize (flow : Bool) (axes : List Axis) (h : HIn V) : Prop :=
  (h.flatVals flow).length = prod (dims flow axes) ∧ ∀ v, h.flatVars flow = .ok v → v.length = prod (dims flow axes)

/-- the histograms of a call have the number of bins of their channel -/
def Spec.fitsOp (s : State V) : Op V → Prop
  | .data h chan vars => ∀ c, s.channels.get? chan = some c →
      Spec.fullSize false c.axes h ∧ ∀ v, vars = some v → Spec.fullSize false c.axes v
  | .pseudo h _ chan => ∀ c, s.channels.get? chan = some c → Spec.fullSize false c.axes h
  | .process h _ chan _ vars => ∀ c, s.channels.get? chan = some c →
      Spec.fullSize c.flow c.axes h ∧ ∀ v, vars = some v → Spec.fullSize c.flow c.axes v
  | .syst (.single h) _ _ chan .. => ∀ c, s.channels.get? chan = some c → Spec.fullSize c.flow c.axes h
  | .syst (.pair u d) _ _ chan .. => ∀ c, s.channels.get? chan = some c →
      Spec.fullSize c.flow c.axes u ∧ Spec.fullSize c.flow c.axes d
  | _ => True

/-- the histograms of all calls of a history have the number of bins of their channel -/
def Spec.fitting (cfg : Cfg V) : State V → List (Op V) → Prop
  | _, [] => True
  | s, op :: ops => Spec.fitsOp s op ∧ Spec.fitting cfg (step cfg op s).1 ops

/-! ### What is stored has the size of its channel -/

/-- sizes of what is stored -/
structure Sized (s : State V) : Prop where
  norm : ∀ c p n, Spec.at2 s.norm c p = some n →
    ∃ ch, s.channels.get? c = some ch ∧ ∃ l, n = .dense l ∧ l.length = chSize ch
  sumw2 : ∀ c p n, Spec.at2 s.norm c p = some n →
    ∃ ch w, s.channels.get? c = some ch ∧ Spec.at2 s.sumw2 c p = some w ∧ w.length = chSize ch
  outer : ∀ c ch, s.channels.get? c = some ch →
    s.norm.has c = true ∧ s.sumw2.has c = true ∧ s.logkavg.has c = true ∧ s.logkhalf.has c = true
  obs : ∀ c l, s.dataObs.get? c = some l → ∃ ch, s.channels.get? c = some ch ∧ l.length = prod (dims false ch.axes)
  var : ∀ c l, s.dataVar.get? c = some l → ∃ ch, s.channels.get? c = some ch ∧ l.length = prod (dims false ch.axes)
  pseudo : ∀ c n l, Spec.at2 s.pseudo c n = some l →
    ∃ ch, s.channels.get? c = some ch ∧ l.length = prod (dims false ch.axes)
  avg : ∀ c p m e, Spec.at3 s.logkavg c p m = some e →
    ∃ n l, Spec.at2 s.norm c p = some n ∧ e = .dense l ∧ l.length = n.vals.length
  half : ∀ c p m e, Spec.at3 s.logkhalf c p m = some e →
    ∃ n l, Spec.at2 s.norm c p = some n ∧ e = .dense l ∧ l.length = n.vals.length
  noFlow : ∀ c ch, s.channels.get? c = some ch → ch.masked = false → ch.flow = false

def cont (s : State V) := (s.norm, s.sumw2, s.logkavg, s.logkhalf, s.channels, s.dataObs, s.dataVar, s.pseudo)

theorem Sized.of_cont {s s' : State V} (h : cont s' = cont s) (hs : Sized s) : Sized s' := by
  simp only [cont, Prod.mk.injEq] at h
  obtain ⟨h1, h2, h3, h4, h5, h6, h7, h8⟩ := h
  obtain ⟨k1, k2, k3, k4, k5, k6, k7, k8, k9⟩ := hs
  rw [← h1, ← h5] at k1
  rw [← h1, ← h2, ← h5] at k2
  rw [← h1, ← h2, ← h3, ← h4, ← h5] at k3
  rw [← h6, ← h5] at k4
  rw [← h7, ← h5] at k5
  rw [← h8, ← h5] at k6
  rw [← h1, ← h3] at k7
  rw [← h1, ← h4] at k8
  rw [← h5] at k9
  exact ⟨k1, k2, k3, k4, k5, k6, k7, k8, k9⟩

theorem keepsCont_bookSystematic (name : String) (toCov : Bool) (o : SystOpts) :
    Keeps cont (bookSystematic name toCov o : M V Unit) := by
  unfold bookSystematic
  keeps <;> (split <;> [rfl; (try split) <;> rfl])

theorem upd3_keys {ν : Type} {d d' : Dict String (Dict String (Dict String ν))} {a b c : String} {v : ν}
    (h : upd3 d a b c v = .ok d') (k : String) (hk : d.has k = true) : d'.has k = true := by
  unfold upd3 at h
  split at h
  · rename_i i hi
    cases hu : upd2 i b c v with
    | error e => rw [hu] at h; cases h
    | ok i' =>
      rw [hu] at h
      cases h
      rw [Dict.has_set, hk, Bool.or_true]
  · cases h

theorem upd2_keys {ν : Type} {d d' : Dict String (Dict String ν)} {a b : String} {v : ν}
    (h : upd2 d a b v = .ok d') (k : String) (hk : d.has k = true) : d'.has k = true := by
  unfold upd2 at h
  split at h
  · cases h
    rw [Dict.has_set, hk, Bool.or_true]
  · cases h

section
variable {cfg : Cfg V} (hd : cfg.sparse = false)
include hd

/-- while the systematics of template `n` of channel `chan` are booked -/
def DuringS (chan p : String) (n : Norm V) (s : State V) : Prop := Sized s ∧ Spec.at2 s.norm chan p = some n

omit hd in
theorem presS_bookSystematic (chan p : String) (n : Norm V) (nm : String) (toCov : Bool) (o : SystOpts) :
    Pres (DuringS chan p n) (bookSystematic nm toCov o : M V Unit) :=
  Pres.of_keeps (keepsCont_bookSystematic ..) fun s s' h hs => ⟨hs.1.of_cont h, by
    simp only [cont, Prod.mk.injEq] at h
    rw [h.1]; exact hs.2⟩

theorem presS_bookLogk (half : Bool) (chan p name : String) (n : Norm V) (lk : List V) (proc : Option String)
    (hproc : ∀ q, proc = some q → q = p) (hl : lk.length = n.vals.length) :
    Pres (DuringS chan p n) (bookLogk cfg half (wrap n.idx lk) chan proc name) := by
  refine ⟨fun s hs => ?_⟩
  unfold bookLogk
  rw [read_bind]
  cases proc with
  | none => exact hs
  | some q =>
    have := hproc q rfl
    subst this
    rw [lift_ok_bind]
    cases hnc : s.norm.get chan with
    | error e => exact hs
    | ok nc =>
      rw [lift_ok_bind]
      cases hn : nc.get q with
      | error e => exact hs
      | ok n' =>
        have hat := get_at2 hnc hn
        rw [hs.2] at hat
        cases hat
        rw [lift_ok_bind]
        cases he : bookedLogk cfg n (wrap n.idx lk) with
        | error e => exact hs
        | ok e =>
          rw [lift_ok_bind]
          obtain ⟨ch, hch, v, rfl, hv⟩ := hs.1.norm _ _ _ hs.2
          have hq : ∃ l, e = .dense l ∧ l.length = v.length := by
            have he' : (zipB maskNorm v lk).bind (fun m => .ok (if cfg.sparse then .sparse (nonzeros m) else .dense m)) =
              .ok e := he
            cases hz : zipB maskNorm v lk with
            | error _ => rw [hz] at he'; cases he'
            | ok m =>
              rw [hz] at he'
              have he'' : (if cfg.sparse = true then LogkE.sparse (nonzeros m) else .dense m) = e := Except.ok.inj he'
              rw [hd] at he''
              refine ⟨m, by rw [← he'']; rfl, ?_⟩
              rw [zipB_length hz, if_pos (show v.length = lk.length from hl.symm)]
          cases half with
          | true =>
            simp only [if_true]
            cases hd : upd3 s.logkhalf chan q name e with
            | error _ => exact hs
            | ok d =>
              refine ⟨⟨hs.1.1, hs.1.2, fun c ch h => ?_, hs.1.4, hs.1.5, hs.1.6, hs.1.7, fun c p' m e' h => ?_, hs.1.9⟩, hs.2⟩
              · obtain ⟨a1, a2, a3, a4⟩ := hs.1.3 c ch h
                exact ⟨a1, a2, a3, upd3_keys hd _ a4⟩
              · have h' : Spec.at3 d c p' m = some e' := h
                rw [upd3_at hd] at h'
                split at h'
                · rename_i hc
                  obtain ⟨rfl, rfl, rfl⟩ := hc
                  cases h'
                  obtain ⟨l, h1, h2⟩ := hq
                  exact ⟨_, l, hs.2, h1, h2⟩
                · exact hs.1.half c p' m e' h'
          | false =>
            simp only [Bool.false_eq_true, if_false]
            cases hd : upd3 s.logkavg chan q name e with
            | error _ => exact hs
            | ok d =>
              refine ⟨⟨hs.1.1, hs.1.2, fun c ch h => ?_, hs.1.4, hs.1.5, hs.1.6, fun c p' m e' h => ?_, hs.1.8, hs.1.9⟩, hs.2⟩
              · obtain ⟨a1, a2, a3, a4⟩ := hs.1.3 c ch h
                exact ⟨a1, a2, upd3_keys hd _ a3, a4⟩
              · have h' : Spec.at3 d c p' m = some e' := h
                rw [upd3_at hd] at h'
                split at h'
                · rename_i hc
                  obtain ⟨rfl, rfl, rfl⟩ := hc
                  cases h'
                  obtain ⟨l, h1, h2⟩ := hq
                  exact ⟨_, l, hs.2, h1, h2⟩
                · exact hs.1.avg c p' m e' h'

omit hd in
/-- binding a computed value -/
theorem Pres.bind_lift {α β : Type} {I : State V → Prop} {r : Res α} {f : α → M V β} (h : ∀ a, r = .ok a → Pres I (f a)) :
    Pres I (M.lift r >>= f) := by
  refine ⟨fun s hs => ?_⟩
  cases hr : r with
  | error e => exact hs
  | ok a => rw [lift_ok_bind]; exact (h a hr).run s hs

omit hd in
theorem Pres.bind_post {α β : Type} {I : State V → Prop} {m : M V α} {f : α → M V β} (hm : Pres I m) (Q : α → Prop)
    (hq : ∀ s a, (m s).2 = .ok a → Q a) (h : ∀ a, Q a → Pres I (f a)) : Pres I (m >>= f) := by
  refine ⟨fun s hs => ?_⟩
  have h1 := hm.run s hs
  have h2 := hq s
  rw [bind_def]
  split
  · rename_i s' a he
    rw [he] at h1 h2
    exact (h a (h2 a rfl)).run s' h1
  · rename_i s' e he
    rw [he] at h1; exact h1

theorem presS_computeAsymSyst (up down : List V) (name : String) (chan p : String) (n : Norm V) (proc : Option String)
    (hproc : ∀ q, proc = some q → q = p) (symm : Symm) (toCov : Bool) (o : SystOpts)
    (hu : up.length = n.vals.length) (hw : down.length = n.vals.length) :
    Pres (DuringS chan p n) (computeAsymSyst cfg up down name proc chan symm toCov n.idx o) := by
  have hz : ∀ {f : V → V → V} {r : List V}, zipB f up down = .ok r → r.length = n.vals.length := fun h => by
    rw [zipB_length h, if_pos (hu.trans hw.symm)]; exact hu
  unfold computeAsymSyst
  refine Pres.bind (Pres.lift _) fun avg => ?_
  cases symm with
  | conservative => exact Pres.pure _
  | average => exact Pres.pure _
  | linear | quadratic =>
    exact Pres.bind_lift fun _ h => Pres.bind (presS_bookLogk hd _ _ _ _ _ _ _ hproc (hz h)) fun _ =>
      Pres.bind (presS_bookSystematic ..) fun _ => Pres.pure _
  | none =>
    refine Pres.bind (Pres.raiseIf _ _) fun _ => Pres.bind ⟨fun s hs => ?_⟩ fun _ => Pres.bind_lift fun _ h =>
      Pres.bind (presS_bookLogk hd _ _ _ _ _ _ _ hproc (hz h)) fun _ => Pres.pure _
    exact ⟨Sized.of_cont (s := s) rfl hs.1, hs.2⟩

omit hd in
theorem computeAsymSyst_length (up down : List V) (name : String) (chan : String) (idx : Option (List Nat))
    (proc : Option String) (symm : Symm) (toCov : Bool) (o : SystOpts) (k : Nat)
    (hu : up.length = k) (hw : down.length = k) (s : State V) (r : List V × String)
    (h : (computeAsymSyst cfg up down name proc chan symm toCov idx o s).2 = .ok r) : r.1.length = k := by
  obtain ⟨s', h'⟩ : ∃ s', computeAsymSyst cfg up down name proc chan symm toCov idx o s = (s', .ok r) :=
    ⟨(computeAsymSyst cfg up down name proc chan symm toCov idx o s).1, by rw [← h]⟩
  unfold computeAsymSyst at h'
  obtain ⟨avg, ha, h'⟩ := lift_bind_ok h'
  have hl : avg.length = k := by rw [zipB_length ha, if_pos (hu.trans hw.symm)]; exact hu
  cases symm with
  | conservative => cases h'; exact hl
  | average => cases h'; exact hl
  | linear | quadratic =>
    obtain ⟨_, _, h'⟩ := lift_bind_ok h'
    obtain ⟨_, _, _, h'⟩ := bind_ok h'
    obtain ⟨_, _, _, h'⟩ := bind_ok h'
    cases h'; exact hl
  | none =>
    obtain ⟨_, _, _, h'⟩ := bind_ok h'
    obtain ⟨_, _, _, h'⟩ := bind_ok h'
    obtain ⟨_, _, h'⟩ := lift_bind_ok h'
    obtain ⟨_, _, _, h'⟩ := bind_ok h'
    cases h'; exact hl

omit hd in
theorem logkVals_len {N : Num V} {t : SystType} {kfac : V} {sv : List (FVal V)} {norm l : List V}
    (h : logkVals N t kfac sv norm = .ok l) (hl : sv.length = norm.length) : l.length = norm.length := by
  unfold logkVals at h
  split at h
  · cases h
  · rename_i v hv
    rw [finites_eq_some] at hv
    split at h
    · cases h
    · have : v.length = norm.length := by rw [← hl, hv, List.length_map]
      rw [zipB_length h, if_pos this]; exact this

omit hd in
theorem applyDiff_len {d : Bool} {norm : List V} {sv r : List (FVal V)} (h : applyDiff d norm sv = .ok r)
    (hl : sv.length = norm.length) : r.length = norm.length := by
  unfold applyDiff at h
  split at h
  · rw [zipB_length h, if_pos hl.symm]
  · cases h; exact hl

theorem presS_addSystematic (x : SystIn V) (name proc chan : String) (kfac : V) (mirror : Bool)
    (symm : Symm) (toCov asDiff : Bool) (o : SystOpts) (s : State V) (hs : Sized s)
    (hf : Spec.fitsOp s (.syst x name proc chan kfac mirror symm toCov asDiff o)) :
    Sized (addSystematic cfg x name proc chan kfac mirror symm toCov asDiff o s).1 := by
  unfold addSystematic
  rw [read_bind]
  cases hnc : s.norm.get chan with
  | error e => exact hs
  | ok nc =>
    rw [lift_ok_bind]
    cases hn : nc.get proc with
    | error e => exact hs
    | ok n =>
      rw [lift_ok_bind]
      have hat := get_at2 hnc hn
      obtain ⟨ch, hch, v, rfl, hv⟩ := hs.norm _ _ _ hat
      have hbl : ∀ (lk : List V) nm, lk.length = v.length →
          Pres (DuringS chan proc (.dense v)) (bookLogk cfg false (wrap (Norm.idx (.dense v)) lk) chan (some proc) nm) :=
        fun lk nm hl => presS_bookLogk hd _ _ _ _ _ _ _ (by rintro q h; exact (Option.some.inj h).symm) hl
      refine ((Pres.run (I := DuringS chan proc (.dense v)) ?_) s ⟨hs, hat⟩).1
      refine Pres.bind_lift fun c hc => ?_
      have hcc : c = ch := by
        unfold Dict.get at hc
        rw [hch] at hc; cases hc; rfl
      subst hcc
      have hsv : ∀ {h : HIn V} {sv}, Spec.fullSize c.flow c.axes h → systVals h (.dense v) c.flow = .ok sv →
          sv.length = v.length := by
        intro h sv hz he
        have he' : (.ok (h.flatVals c.flow) : Res _) = .ok sv := he
        cases he'
        rw [hz.1, hv]; rfl
      cases x with
      | pair hu hw =>
        have hf' := hf c hch
        refine Pres.bind (Pres.lift _) fun _ => Pres.bind (Pres.lift _) fun _ => Pres.bind_lift fun a ha =>
          Pres.bind_lift fun b hb => Pres.bind_lift fun a' ha' => Pres.bind_lift fun b' hb' => Pres.bind_lift fun u hu =>
          Pres.bind_lift fun w hw => ?_
        have h1 : u.length = v.length := logkVals_len hu (applyDiff_len ha' (hsv hf'.1 ha))
        have h2 : (w.map fun v => -v).length = v.length := by
          rw [List.length_map]; exact logkVals_len hw (applyDiff_len hb' (hsv hf'.2 hb))
        exact Pres.bind_post (presS_computeAsymSyst hd _ _ _ _ _ _ _ (by rintro q h; exact (Option.some.inj h).symm) _ _ _
            h1 h2) (fun r => r.1.length = v.length)
          (fun s a h => computeAsymSyst_length _ _ _ _ _ _ _ _ _ _ h1 h2 s a h) fun r hr =>
          Pres.bind (hbl _ _ hr) fun _ => presS_bookSystematic ..
      | single h =>
        have hf' := hf c hch
        exact Pres.bind (Pres.raiseIf _ _) fun _ => Pres.bind (Pres.lift _) fun _ => Pres.bind_lift fun a ha =>
          Pres.bind_lift fun a' ha' => Pres.bind_lift fun l hl =>
          Pres.bind (hbl _ _ (logkVals_len hl (applyDiff_len ha' (hsv hf' ha)))) fun _ => presS_bookSystematic ..

theorem presS_normOne (name chan : String) (toCov : Bool) (symm : Symm) (o : SystOpts)
    (varName p : String) (u : Unc V) : Pres Sized (normOne cfg name chan toCov symm o varName p u) := by
  refine ⟨fun s hs => ?_⟩
  unfold normOne
  rw [read_bind]
  cases hnc : s.norm.get chan with
  | error e => exact hs
  | ok nc =>
    rw [lift_ok_bind]
    cases hn : nc.get p with
    | error e => exact hs
    | ok n =>
      rw [lift_ok_bind]
      have hlk : ∀ {t k} {x : V} {l}, logkVals cfg.num t k (n.vals.map fun v => .fin (v * x)) n.vals = .ok l →
          l.length = n.vals.length := fun h => logkVals_len h (by rw [List.length_map])
      have hbl : ∀ (lk : List V) nm, lk.length = n.vals.length →
          Pres (DuringS chan p n) (bookLogk cfg false (wrap n.idx lk) chan (some p) nm) :=
        fun lk nm => presS_bookLogk hd _ _ _ _ _ _ _ (by rintro q h; exact (Option.some.inj h).symm)
      refine ((Pres.run (I := DuringS chan p n) ?_) s ⟨hs, get_at2 hnc hn⟩).1
      split
      · exact Pres.bind_lift fun _ h => Pres.bind (hbl _ _ (hlk h)) fun _ => Pres.pure _
      · refine Pres.bind_lift fun a ha => Pres.bind_lift fun b hb => ?_
        have h2 : (b.map fun v => -v).length = n.vals.length := by rw [List.length_map]; exact hlk hb
        exact Pres.bind_post (presS_computeAsymSyst hd _ _ _ _ _ _ _ (by rintro q h; cases h) _ _ _ (hlk ha) h2)
          (fun r => r.1.length = n.vals.length)
          (fun s a h => computeAsymSyst_length _ _ _ _ _ _ _ _ _ _ (hlk ha) h2 s a h) fun r hr =>
          Pres.bind (hbl _ _ hr) fun _ => Pres.pure _
      · exact Pres.raise _

theorem presS_normLoop (name chan : String) (toCov : Bool) (symm : Symm) (o : SystOpts)
    (l : List (String × Unc V)) : ∀ varName, Pres Sized (normLoop cfg name chan toCov symm o varName l) := by
  induction l with
  | nil => exact fun v => Pres.pure v
  | cons x l ih =>
    obtain ⟨p, u⟩ := x
    exact fun v => Pres.bind (presS_normOne hd ..) fun v' => ih v'

omit hd in
theorem insertChannel_get {ch : Dict String Chan} {name : String} {c : Chan} (hf : ch.has name = false)
    (hn : (Dict.keys ch).Nodup) (k : String) :
    (insertChannel ch name c).get? k = if k = name then some c else ch.get? k := by
  have hnk : name ∉ Dict.keys ch := by rw [Dict.mem_keys_iff_has, hf]; simp
  unfold insertChannel
  split
  · rw [Dict.get?_set]
    by_cases h : name = k
    · rw [if_pos h, if_pos h.symm]
    · rw [if_neg h, if_neg fun e => h e.symm]
  · have hnd : ∀ q : String × Chan → Bool, (Dict.keys (ch.filter q)).Nodup := fun q =>
      hn.sublist (List.Sublist.map _ List.filter_sublist)
    have hget : ∀ q : String × Chan → Bool, ∀ v, Dict.get? (ch.filter q) k = some v ↔ ch.get? k = some v ∧ q (k, v) = true := by
      intro q v
      constructor
      · intro h
        have := Dict.mem_of_get? _ _ _ h
        rw [List.mem_filter] at this
        exact ⟨Dict.get?_of_mem _ _ _ hn this.1, this.2⟩
      · rintro ⟨h1, h2⟩
        exact Dict.get?_of_mem _ _ _ (hnd q) (List.mem_filter.2 ⟨Dict.mem_of_get? _ _ _ h1, h2⟩)
    rw [Dict.get?_merge _ _ _ (hnd _)]
    by_cases hk : k = name
    · subst hk
      rw [if_pos rfl]
      cases hm : Dict.get? (ch.filter fun kv => kv.2.masked) k with
      | some v =>
        have := ((hget _ v).1 hm).1
        rw [(Dict.has_eq_false_iff _ _).1 hf] at this; cases this
      | none => simp
    · rw [if_neg hk]
      cases hm : Dict.get? (ch.filter fun kv => kv.2.masked) k with
      | some v => rw [((hget _ v).1 hm).1]; rfl
      | none =>
        rw [Option.none_or, Dict.get?_set_ne _ _ fun e => hk e.symm]
        cases hc : ch.get? k with
        | none =>
          cases hx : Dict.get? (ch.filter fun kv => !kv.2.masked) k with
          | none => rfl
          | some w => rw [((hget _ w).1 hx).1] at hc; cases hc
        | some v =>
          rw [hget]
          refine ⟨hc, ?_⟩
          cases hmm : v.masked with
          | false => simp
          | true => rw [(hget _ v).2 ⟨hc, hmm⟩] at hm; cases hm

omit hd in
theorem sized_addChannel (axes : List Axis) (name : Option String) (masked flow : Bool) (s : State V) (hs : Sized s)
    (hl : LayInv s) (hf : s.channels.has (name.getD s!"ch{s.channels.length}") = false) :
    Sized (addChannel axes name masked flow s).1 := by
  unfold addChannel
  rw [raiseIf_bind]
  split
  · exact hs
  rename_i hnot
  rw [read_bind]
  generalize name.getD s!"ch{s.channels.length}" = nm at hf ⊢
  have hg := insertChannel_get (c := ⟨axes, masked, flow⟩) hf hl.nodup
  have hne : ∀ {c ch}, s.channels.get? c = some ch → c ≠ nm := by
    rintro c ch h rfl
    rw [(Dict.has_eq_false_iff _ _).1 hf] at h; cases h
  have hold : ∀ {c ch}, s.channels.get? c = some ch →
      (insertChannel s.channels nm ⟨axes, masked, flow⟩).get? c = some ch := by
    intro c ch h
    rw [hg, if_neg (hne h)]; exact h
  refine ⟨fun c p n h => ?_, fun c p n h => ?_, fun c ch h => ?_, fun c l h => ?_, fun c l h => ?_, fun c n l h => ?_,
    fun c p m e h => ?_, fun c p m e h => ?_, fun c ch h hm => ?_⟩
  · have h' : Spec.at2 (s.norm.set nm []) c p = some n := h
    rw [at2_of_set] at h'
    split at h'
    · cases h'
    · obtain ⟨ch, h1, h2⟩ := hs.norm c p n h'
      exact ⟨ch, hold h1, h2⟩
  · have h' : Spec.at2 (s.norm.set nm []) c p = some n := h
    rw [at2_of_set] at h'
    split at h'
    · cases h'
    · rename_i hx
      obtain ⟨ch, w, h1, h2, h3⟩ := hs.sumw2 c p n h'
      refine ⟨ch, w, hold h1, ?_, h3⟩
      show Spec.at2 (s.sumw2.set nm []) c p = some w
      rw [at2_of_set, if_neg hx]; exact h2
  · have h' : (insertChannel s.channels nm ⟨axes, masked, flow⟩).get? c = some ch := h
    show (s.norm.set nm []).has c = true ∧ (s.sumw2.set nm []).has c = true ∧ (s.logkavg.set nm []).has c = true ∧
      (s.logkhalf.set nm []).has c = true
    simp only [Dict.has_set]
    rw [hg] at h'
    by_cases hc : c = nm
    · subst hc; simp
    · rw [if_neg hc] at h'
      obtain ⟨a1, a2, a3, a4⟩ := hs.outer c ch h'
      rw [a1, a2, a3, a4]; simp
  · obtain ⟨ch, h1, h2⟩ := hs.obs c l h
    exact ⟨ch, hold h1, h2⟩
  · obtain ⟨ch, h1, h2⟩ := hs.var c l h
    exact ⟨ch, hold h1, h2⟩
  · obtain ⟨ch, h1, h2⟩ := hs.pseudo c n l h
    exact ⟨ch, hold h1, h2⟩
  · have h' : Spec.at3 (s.logkavg.set nm []) c p m = some e := h
    rw [at3_of_set_nil] at h'
    split at h'
    · cases h'
    · rename_i hx
      obtain ⟨n, l, h1, h2⟩ := hs.avg c p m e h'
      refine ⟨n, l, ?_, h2⟩
      show Spec.at2 (s.norm.set nm []) c p = some n
      rw [at2_of_set, if_neg hx]; exact h1
  · have h' : Spec.at3 (s.logkhalf.set nm []) c p m = some e := h
    rw [at3_of_set_nil] at h'
    split at h'
    · cases h'
    · rename_i hx
      obtain ⟨n, l, h1, h2⟩ := hs.half c p m e h'
      refine ⟨n, l, ?_, h2⟩
      show Spec.at2 (s.norm.set nm []) c p = some n
      rw [at2_of_set, if_neg hx]; exact h1
  · have h' : (insertChannel s.channels nm ⟨axes, masked, flow⟩).get? c = some ch := h
    rw [hg] at h'
    split at h'
    · cases h'
      dsimp only at hm ⊢
      subst hm
      cases flow with
      | false => rfl
      | true => exact (hnot rfl).elim
    · exact hs.noFlow c ch h' hm

omit hd in
theorem checkHist_ok {cfg : Cfg V} {channels : Dict String Chan} {h : HIn V} {chan : String} {c : Chan}
    (hc : checkHist cfg channels h chan = .ok c) : channels.get? chan = some c := by
  unfold checkHist at hc
  split at hc
  · cases hc
  · rename_i c' hc'
    rw [hc']
    split at hc
    · cases hx : checkAxes cfg.close c'.axes ‹_› with
      | error e => rw [hx] at hc; cases hc
      | ok _ => rw [hx] at hc; cases hc; rfl
    · cases hx : checkAxes cfg.close c'.axes ‹_› with
      | error e => rw [hx] at hc; cases hc
      | ok _ => rw [hx] at hc; cases hc; rfl
    · split at hc
      · cases hc; rfl
      · cases hc
    · split at hc
      · cases hc; rfl
      · cases hc

theorem sized_addProcess (h : HIn V) (name chan : String) (sig : Bool) (vars : Option (HIn V)) (s : State V)
    (hs : Sized s) (hf : Spec.fitsOp s (.process h name chan sig vars)) :
    Sized (addProcess cfg h name chan sig vars s).1 := by
  have e0 : cont (named sig name s) = cont s := by unfold named; split <;> rfl
  have hs' : Sized (named sig name s) := hs.of_cont e0
  have e1 := e0
  simp only [cont, Prod.mk.injEq] at e1
  obtain ⟨n1, n2, n3, n4, n5, n6, n7, n8⟩ := e1
  rcases addProcess_out cfg h name chan sig vars s with ⟨⟨e, he⟩, _⟩ | ⟨c, nc, hc, hn, hh, he⟩
  · rw [he]; exact hs
  · rw [he]
    have hcc := checkHist_ok hc
    have hfc := hf c hcc
    have hnew : Spec.at2 s.norm chan name = none := by
      unfold Spec.at2; rw [hn]; exact (Dict.has_eq_false_iff _ _).1 hh
    cases ha : upd2 s.logkavg chan name [] with
    | error e => exact hs'
    | ok avg =>
      dsimp only
      cases hb : upd2 s.logkhalf chan name [] with
      | error e => exact hs'
      | ok half =>
        dsimp only
        have hA : ∀ {c p m e}, Spec.at3 avg c p m = some e → ¬(c = chan ∧ p = name) ∧ Spec.at3 s.logkavg c p m = some e := by
          intro c p m e h
          rw [at3_upd2_nil ha] at h
          split at h
          · cases h
          · rename_i hx; exact ⟨hx, h⟩
        have hB : ∀ {c p m e}, Spec.at3 half c p m = some e → ¬(c = chan ∧ p = name) ∧ Spec.at3 s.logkhalf c p m = some e := by
          intro c p m e h
          rw [at3_upd2_nil hb] at h
          split at h
          · cases h
          · rename_i hx; exact ⟨hx, h⟩
        have key : Sized ({ named sig name s with logkavg := avg, logkhalf := half } : State V) := by
          refine ⟨hs'.1, hs'.2, fun c ch h => ?_, hs'.4, hs'.5, hs'.6, fun c p m e h => ?_, fun c p m e h => ?_, hs'.9⟩
          · obtain ⟨a1, a2, a3, a4⟩ := hs.outer c ch (by rw [← n5]; exact h)
            refine ⟨?_, ?_, upd2_keys ha _ a3, upd2_keys hb _ a4⟩
            · show (named sig name s).norm.has c = true
              rw [n1]; exact a1
            · show (named sig name s).sumw2.has c = true
              rw [n2]; exact a2
          · obtain ⟨n, l, h1, h2⟩ := hs.avg c p m e (hA h).2
            refine ⟨n, l, ?_, h2⟩
            show Spec.at2 (named sig name s).norm c p = some n
            rw [n1]; exact h1
          · obtain ⟨n, l, h1, h2⟩ := hs.half c p m e (hB h).2
            refine ⟨n, l, ?_, h2⟩
            show Spec.at2 (named sig name s).norm c p = some n
            rw [n1]; exact h1
        cases hp : procNorm cfg h c.flow with
        | error e => exact key
        | ok n =>
          dsimp only
          cases hw : procSumw2 h vars c.flow with
          | error e => exact key
          | ok w =>
            dsimp only
            cases hw2 : upd2 s.sumw2 chan name w with
            | error e => exact key
            | ok w2 =>
              -- the new template and its variances
              have hnorm : ∃ l, n = .dense l ∧ l.length = chSize c := by
                unfold procNorm at hp
                rw [hd] at hp
                simp only [Bool.false_and, Bool.false_eq_true, if_false] at hp
                split at hp
                · cases hp
                · rename_i l hl
                  cases hp
                  refine ⟨l, rfl, ?_⟩
                  rw [finites_eq_some] at hl
                  have := congrArg List.length hl
                  rw [List.length_map] at this
                  rw [← this]
                  split <;> [skip; rw [List.length_map]] <;> exact hfc.1.1
              have hsw : w.length = chSize c := by
                have hh : ∃ vs : List (FVal V), vs.length = chSize c ∧ vs = w.map .fin := by
                  unfold procSumw2 at hw
                  have hsome : ∀ (r : Res (List (FVal V))),
                      (r.bind fun vs => match finites vs with | none => .error .runtime | some l => .ok l) = .ok w →
                      ∃ vs, r = .ok vs ∧ vs = w.map .fin := by
                    intro r hr
                    cases r with
                    | error e => cases hr
                    | ok vs =>
                      have hr' : (match finites vs with | none => .error .runtime | some l => .ok l : Res (List V)) = .ok w := hr
                      split at hr'
                      · cases hr'
                      · rename_i l hl
                        cases hr'
                        exact ⟨vs, rfl, finites_eq_some.1 hl⟩
                  cases vars with
                  | some v =>
                    obtain ⟨vs, h1, h2⟩ := hsome _ hw
                    exact ⟨vs, (hfc.2 v rfl).2 vs h1, h2⟩
                  | none =>
                    dsimp only at hw
                    split at hw
                    · obtain ⟨vs, h1, h2⟩ := hsome (.ok (h.flatVals c.flow)) hw
                      cases h1
                      exact ⟨_, hfc.1.1, h2⟩
                    · obtain ⟨vs, h1, h2⟩ := hsome (h.flatVars c.flow) hw
                      exact ⟨vs, hfc.1.2 vs h1, h2⟩
                obtain ⟨vs, h1, h2⟩ := hh
                rw [h2, List.length_map] at h1; exact h1
              have hNget : ∀ c' p', Spec.at2 (s.norm.set chan (nc.set name n)) c' p' =
                  if c' = chan ∧ p' = name then some n else Spec.at2 s.norm c' p' := fun c' p' =>
                upd2_at (d := s.norm) (by unfold upd2; rw [hn]) c' p'
              have hstay : ∀ {c' p' n'}, ¬(c' = chan ∧ p' = name) → Spec.at2 s.norm c' p' = some n' →
                  Spec.at2 (s.norm.set chan (nc.set name n)) c' p' = some n' := by
                intro c' p' n' h1 h2
                rw [hNget, if_neg h1]; exact h2
              have hchn : (named sig name s).channels.get? chan = some c := by rw [n5]; exact hcc
              refine ⟨fun c' p' n' h' => ?_, fun c' p' n' h' => ?_, fun c' ch' h' => ?_, hs'.4, hs'.5, hs'.6,
                fun c' p m e h' => ?_, fun c' p m e h' => ?_, hs'.9⟩
              · have h2 : Spec.at2 (s.norm.set chan (nc.set name n)) c' p' = some n' := h'
                rw [hNget] at h2
                split at h2
                · rename_i hx
                  obtain ⟨rfl, rfl⟩ := hx
                  cases h2
                  exact ⟨c, hchn, hnorm⟩
                · obtain ⟨ch, h3, h4⟩ := hs.norm c' p' n' h2
                  exact ⟨ch, n5 ▸ h3, h4⟩
              · have h2 : Spec.at2 (s.norm.set chan (nc.set name n)) c' p' = some n' := h'
                rw [hNget] at h2
                split at h2
                · rename_i hx
                  obtain ⟨rfl, rfl⟩ := hx
                  refine ⟨c, w, hchn, ?_, hsw⟩
                  show Spec.at2 w2 c' p' = some w
                  rw [upd2_at hw2, if_pos ⟨rfl, rfl⟩]
                · rename_i hx
                  obtain ⟨ch, w', h3, h4, h5⟩ := hs.sumw2 c' p' n' h2
                  refine ⟨ch, w', n5 ▸ h3, ?_, h5⟩
                  show Spec.at2 w2 c' p' = some w'
                  rw [upd2_at hw2, if_neg hx]; exact h4
              · obtain ⟨a1, a2, a3, a4⟩ := hs.outer c' ch' (by rw [← n5]; exact h')
                refine ⟨?_, upd2_keys hw2 _ a2, upd2_keys ha _ a3, upd2_keys hb _ a4⟩
                show (s.norm.set chan (nc.set name n)).has c' = true
                rw [Dict.has_set, a1, Bool.or_true]
              · obtain ⟨n', l, h1, h2⟩ := hs.avg c' p m e (hA h').2
                exact ⟨n', l, hstay (hA h').1 h1, h2⟩
              · obtain ⟨n', l, h1, h2⟩ := hs.half c' p m e (hB h').2
                exact ⟨n', l, hstay (hB h').1 h1, h2⟩

theorem sized_step (op : Op V) (s : State V) (hs : Sized s) (hl : LayInv s)
    (hf : ∀ chan, Spec.addsChannel s chan op → s.channels.has chan = false) (hfit : Spec.fitsOp s op) :
    Sized (step cfg op s).1 := by
  have key : ∀ {m : M V Unit}, Keeps cont m → Sized (m s).1 := fun hm => hs.of_cont (hm.run s)
  cases op with
  | dataCov c => exact key ⟨fun _ => rfl⟩
  | write it => exact key (Keeps.bind (keeps_write _ (fun _ _ => rfl) ..) fun _ => Keeps.pure _)
  | channel axes name m f => exact sized_addChannel axes name m f s hs hl (hf _ rfl)
  | process h name c sig vars => exact sized_addProcess hd h name c sig vars s hs hfit
  | syst x name proc c k m sy t d o => exact presS_addSystematic hd x name proc c k m sy t d o s hs hfit
  | normSyst name procs c u t sy o =>
    exact (Pres.bind (Pres.raiseIf _ _) fun _ => Pres.bind (presS_normLoop hd ..) fun _ =>
      Pres.of_keeps (keepsCont_bookSystematic ..) fun _ _ h hs => hs.of_cont h).run s hs
  | data h chan vars =>
    simp only [step]
    rcases addData_cases cfg h chan vars s with ⟨e, _, he⟩ | ⟨_, _, he⟩ | ⟨⟨ch, hc⟩, hh, hrest⟩
    · rw [he]; exact hs
    · rw [he]; exact hs
    have hcc := checkHist_ok hc
    have hfc := hfit ch hcc
    have hobs : ∀ c l, (s.dataObs.set chan (h.flatVals false)).get? c = some l →
        ∃ ch, s.channels.get? c = some ch ∧ l.length = prod (dims false ch.axes) := by
      intro c l h'
      rw [Dict.get?_set] at h'
      split at h'
      · rename_i hx; subst hx; cases h'; exact ⟨ch, hcc, hfc.1.1⟩
      · exact hs.obs c l h'
    rcases hrest with ⟨e, _, he⟩ | ⟨v, hv, he⟩
    · rw [he]
      exact ⟨hs.1, hs.2, hs.3, hobs, hs.5, hs.6, hs.7, hs.8, hs.9⟩
    · rw [he]
      refine ⟨hs.1, hs.2, hs.3, hobs, fun c l h' => ?_, hs.6, hs.7, hs.8, hs.9⟩
      have h2 : (s.dataVar.set chan v).get? c = some l := h'
      rw [Dict.get?_set] at h2
      split at h2
      · rename_i hx; subst hx; cases h2
        refine ⟨ch, hcc, ?_⟩
        cases vars with
        | none => exact hfc.1.2 _ hv
        | some w => exact (hfc.2 w rfl).2 _ hv
      · exact hs.var c l h2
  | pseudo h name chan =>
    simp only [step]
    have hacc : ∀ {s'}, addPseudo cfg h name chan s = (s', .ok ()) → ∃ ch, s.channels.get? chan = some ch := by
      intro s' he
      unfold addPseudo at he
      rw [read_bind] at he
      obtain ⟨c, hc, _⟩ := lift_bind_ok he
      exact ⟨c, checkHist_ok hc⟩
    rcases addPseudo_out cfg h name chan s with ⟨e, he⟩ | ⟨nm, pc, hnm, hpc, ⟨_, he⟩ | ⟨_, he⟩⟩
    · rw [he]; exact hs
    · rw [he]; exact Sized.of_cont (s := s) rfl hs
    · obtain ⟨ch, hch⟩ := hacc he
      rw [he]
      refine ⟨hs.1, hs.2, hs.3, hs.4, hs.5, fun c' n' l' h' => ?_, hs.7, hs.8, hs.9⟩
      have h2 : Spec.at2 (s.pseudo.set chan (pc.set nm (h.flatVals false))) c' n' = some l' := h'
      rw [at2_of_set] at h2
      split at h2
      · rename_i hx
        subst hx
        rw [Dict.get?_set] at h2
        split at h2
        · cases h2; exact ⟨ch, hch, (hfit ch hch).1⟩
        · cases hp : s.pseudo.get? chan with
          | none => rw [hpc, hp] at h2; cases h2
          | some pc' =>
            rw [hpc, hp] at h2
            exact hs.pseudo chan n' l' (by unfold Spec.at2; rw [hp]; exact h2)
      · exact hs.pseudo c' n' l' h2

theorem sized_run (ops : List (Op V)) (hf : Spec.freshNames cfg {} ops) (hfit : Spec.fitting cfg {} ops) :
    Sized (run cfg ops) := by
  have : ∀ (ops : List (Op V)) (s : State V), LayInv s → Sized s → Spec.freshNames cfg s ops → Spec.fitting cfg s ops →
      Sized (runOps cfg s ops) := by
    intro ops
    induction ops with
    | nil => exact fun s _ hs _ _ => hs
    | cons op ops ih =>
      exact fun s hl hs h1 h2 => ih _ (layInv_step cfg op s hl h1.1) (sized_step hd op s hs hl h1.1 h2.1) h1.2 h2.2
  exact this ops {} ⟨by simp, by simp, by simp [Dict.keys]⟩
    ⟨by rintro _ _ _ ⟨⟩, by rintro _ _ _ ⟨⟩, by rintro _ _ ⟨⟩, by rintro _ _ ⟨⟩, by rintro _ _ ⟨⟩, by rintro _ _ _ ⟨⟩,
      by rintro _ _ _ _ ⟨⟩, by rintro _ _ _ _ ⟨⟩, by rintro _ _ ⟨⟩⟩ hf hfit

end

/-! ### When the parts of `write` succeed -/

theorem loop_ok {α β : Type} {body : β → α → Res β} {l : List α} (h : ∀ b, ∀ x ∈ l, ∃ b', body b x = .ok b') :
    ∀ b, ∃ r, loop body b l = .ok r := by
  induction l with
  | nil => exact fun b => ⟨b, rfl⟩
  | cons x l ih =>
    intro b
    obtain ⟨b', hb⟩ := h b x (by simp)
    obtain ⟨r, hr⟩ := ih (fun b y hy => h b y (by simp [hy])) b'
    refine ⟨r, ?_⟩
    unfold loop
    rw [hb]; exact hr

theorem assign_ok {α : Type} {N start n : Nat} {l : List α} (f : Nat → α) (hN : start + n ≤ N) (hl : l.length = n) :
    ∃ g, assign N f start n l = .ok g := by
  unfold assign
  have h1 : min start N = start := by omega
  have h2 : min (start + n) N = start + n := by omega
  simp only [h1, h2]
  rw [if_pos (by omega)]
  exact ⟨_, rfl⟩

theorem assignCol_ok {α : Type} {N start n : Nat} {l : List α} (f : Nat → Nat → α) (col : Nat) (hN : start + n ≤ N)
    (hl : l.length = n) : ∃ g, assignCol N f col start n l = .ok g := by
  obtain ⟨g, hg⟩ := assign_ok (fun b => f b col) hN hl
  unfold assignCol
  rw [hg]; exact ⟨_, rfl⟩

theorem layoutFrom_ok {nb : Dict String Nat} : ∀ {ch : Dict String Chan} (k : Nat),
    (∀ x ∈ ch, ∃ n, nb.get? x.1 = some n) → ∃ lay, layoutFrom nb k ch = .ok lay := by
  intro ch
  induction ch with
  | nil => exact fun k _ => ⟨[], rfl⟩
  | cons x ch ih =>
    intro k h
    obtain ⟨n, hn⟩ := h x (by simp)
    obtain ⟨l, hl⟩ := ih (k + n) fun y hy => h y (by simp [hy])
    unfold layoutFrom
    simp only [hn, hl]
    exact ⟨_, rfl⟩

theorem nbinsOf_ok {ch : Dict String Chan} : ∀ {nb : Dict String Nat}, (∀ x ∈ nb, ∃ c, ch.get? x.1 = some c) →
    ∃ m, nbinsOf ch nb = .ok m := by
  intro nb
  induction nb with
  | nil => exact fun _ => ⟨0, rfl⟩
  | cons x nb ih =>
    intro h
    obtain ⟨c, hc⟩ := h x (by simp)
    obtain ⟨m, hm⟩ := ih fun y hy => h y (by simp [hy])
    unfold nbinsOf
    simp only [hc, hm]
    exact ⟨_, rfl⟩

theorem collect_ok {α β : Type} {body : α → Res (Option β)} {l : List α} (h : ∀ x ∈ l, ∃ o, body x = .ok o) :
    ∃ r, collect body l = .ok r := by
  induction l with
  | nil => exact ⟨[], rfl⟩
  | cons x l ih =>
    obtain ⟨o, ho⟩ := h x (by simp)
    obtain ⟨r, hr⟩ := ih fun y hy => h y (by simp [hy])
    unfold collect
    rw [ho]
    dsimp only
    rw [hr]; exact ⟨_, rfl⟩

/-- the tables have an entry for every channel, and for every template its variances and variations -/
structure Complete (s : State V) : Prop where
  outer : ∀ c ch, s.channels.get? c = some ch →
    s.norm.has c = true ∧ s.sumw2.has c = true ∧ s.logkavg.has c = true ∧ s.logkhalf.has c = true
  sumw2 : ∀ c p n, Spec.at2 s.norm c p = some n → ∃ w, Spec.at2 s.sumw2 c p = some w
  ready : Spec.ready s

theorem cellsOf_ok {s : State V} (hs : Complete s) (procs : List String) {lay : List Slot}
    (hl : ∀ sl ∈ lay, s.channels.get? sl.name = some sl.chan) : ∃ cells, cellsOf s procs lay = .ok cells := by
  have hslot : ∀ sl ∈ lay, ∃ r, cellsOfSlot s procs sl = .ok r := by
    intro sl hsl
    obtain ⟨a1, a2, a3, a4⟩ := hs.outer _ _ (hl sl hsl)
    obtain ⟨nc, hnc⟩ := (Dict.has_iff _ _).1 a1
    obtain ⟨wc, hwc⟩ := (Dict.has_iff _ _).1 a2
    obtain ⟨ac, hac⟩ := (Dict.has_iff _ _).1 a3
    obtain ⟨hc, hhc⟩ := (Dict.has_iff _ _).1 a4
    unfold cellsOfSlot
    rw [hnc, hwc, hac, hhc]
    dsimp only
    refine collect_ok fun x _ => ?_
    cases hn : nc.get? x.1 with
    | none => exact ⟨_, rfl⟩
    | some n =>
      have hat : Spec.at2 s.norm sl.name x.1 = some n := by unfold Spec.at2; rw [hnc]; exact hn
      obtain ⟨w, hw⟩ := hs.sumw2 _ _ _ hat
      obtain ⟨⟨a, ha⟩, b, hb⟩ := hs.ready _ _ _ hat
      unfold Spec.at2 at hw ha hb
      rw [hwc] at hw
      rw [hac] at ha
      rw [hhc] at hb
      have hw' : wc.get? x.1 = some w := hw
      have ha' : ac.get? x.1 = some a := ha
      have hb' : hc.get? x.1 = some b := hb
      dsimp only
      rw [hw', ha', hb']
      exact ⟨_, rfl⟩
  clear hl
  induction lay with
  | nil => exact ⟨[], rfl⟩
  | cons sl lay ih =>
    obtain ⟨r, hr⟩ := hslot sl (by simp)
    obtain ⟨rs, hrs⟩ := ih fun x hx => hslot x (by simp [hx])
    unfold cellsOf
    rw [hr, hrs]; exact ⟨_, rfl⟩

theorem weights_ok (iter : List String → List String) (s : State V) :
    ∃ w, constraintWeights iter s = .ok w := by
  unfold constraintWeights
  refine loop_ok (fun w n hn => ?_) _
  have hm : n ∈ getSysts iter s := by
    unfold getSysts; exact List.mem_append.2 (.inl hn)
  obtain ⟨i, hi, _⟩ := systToIdx_isSome hm
  rw [hi]; exact ⟨_, rfl⟩

/-- everything in the file apart from the two tensors and the covariance can be computed -/
theorem frame_ok (iter : List String → List String) {s : State V}
    (hl : LayInv s) (hc : Complete s) (hk : ∀ p ∈ s.signals, p ∉ s.bkgs) :
    ∃ procs nbins lay cells weights, procsOf s = .ok procs ∧ nbinsOf s.channels s.nbinschan = .ok nbins ∧
      layoutFrom s.nbinschan 0 s.channels = .ok lay ∧ cellsOf s procs lay = .ok cells ∧
      constraintWeights iter s = .ok weights ∧
      (∀ sl ∈ lay, s.channels.get? sl.name = some sl.chan ∧ sl.n = chSize sl.chan ∧
        sl.start + sl.n ≤ nbinsFull s.nbinschan ∧ (sl.chan.masked = false → sl.start + sl.n ≤ nbins)) ∧
      ∀ c ∈ cells, IsCell s procs lay c := by
  have hp : procsOf s = .ok (sortedNames s.signals ++ sortedNames s.bkgs) := by
    unfold procsOf
    rw [if_neg]
    rw [List.any_eq_true]
    rintro ⟨p, h1, h2⟩
    exact hk p h1 (by simpa using h2)
  obtain ⟨nbins, hn⟩ := nbinsOf_ok (ch := s.channels) (nb := s.nbinschan) fun x hx => by
    rw [hl.size.mem_iff, List.mem_map] at hx
    obtain ⟨y, hy, rfl⟩ := hx
    exact ⟨y.2, Dict.get?_of_mem _ _ _ hl.nodup hy⟩
  obtain ⟨lay, hlay⟩ := layoutFrom_ok (nb := s.nbinschan) (ch := s.channels) 0 fun x hx => ⟨_, hl.get (c := x.2) hx⟩
  obtain ⟨hb, hpw, hcov, hch, hnb⟩ := layoutFrom_bounds hlay
  obtain ⟨hN, hnn⟩ := layInv_sizes hl hlay hn
  have hslc : ∀ sl ∈ lay, (sl.name, sl.chan) ∈ s.channels := fun sl hsl => by
    have : (sl.name, sl.chan) ∈ lay.map fun sl => (sl.name, sl.chan) := List.mem_map.2 ⟨sl, hsl, rfl⟩
    rw [hch] at this; exact this
  have hget : ∀ sl ∈ lay, s.channels.get? sl.name = some sl.chan := fun sl hsl =>
    Dict.get?_of_mem _ _ _ hl.nodup (hslc sl hsl)
  obtain ⟨cells, hcells⟩ := cellsOf_ok hc (sortedNames s.signals ++ sortedNames s.bkgs) hget
  obtain ⟨w, hw⟩ := weights_ok iter s
  have hmask := layout_masked hlay hl.sorted
  refine ⟨_, nbins, lay, cells, w, hp, hn, hlay, hcells, hw, fun sl hsl => ⟨hget sl hsl, ?_, ?_, fun hm => ?_⟩,
    fun c hc => (mem_cellsOf hcells c).1 hc⟩
  · have := hl.get (hslc sl hsl)
    rw [hnb sl hsl] at this
    exact Option.some.inj this
  · have := (hb sl hsl).2
    rw [hN]; omega
  · have := (hmask sl hsl).1 hm
    rw [hnn]; omega

theorem fillData_ok {nbins : Nat} {d : Dict String (List (FVal V))} {lay : List Slot}
    (h : ∀ sl ∈ lay, sl.chan.masked = false → sl.start + sl.n ≤ nbins ∧ ∃ l, d.get? sl.name = some l ∧ l.length = sl.n) :
    ∃ f, fillData nbins d lay = .ok f := by
  unfold fillData
  refine loop_ok (fun f sl hsl => ?_) _
  cases hm : sl.chan.masked with
  | true => exact ⟨f, by rw [if_pos rfl]⟩
  | false =>
    obtain ⟨h1, l, h2, h3⟩ := h sl hsl hm
    rw [if_neg (by simp), h2]
    exact assign_ok f h1 h3

theorem fillPseudo_ok {nbins : Nat} {names : List String} {d : Dict String (Dict String (List (FVal V)))}
    {lay : List Slot} (h : ∀ sl ∈ lay, sl.chan.masked = false → sl.start + sl.n ≤ nbins ∧
      ∀ n ∈ names, ∃ l, Spec.at2 d sl.name n = some l ∧ l.length = sl.n) :
    ∃ f, fillPseudo nbins names d lay = .ok f := by
  unfold fillPseudo
  refine loop_ok (fun f sl hsl => ?_) _
  cases hm : sl.chan.masked with
  | true => exact ⟨f, by rw [if_pos rfl]⟩
  | false =>
    obtain ⟨h1, h2⟩ := h sl hsl hm
    rw [if_neg (by simp)]
    refine loop_ok (fun f e he => ?_) _
    obtain ⟨l, h3, h4⟩ := h2 e.1 (List.fst_mem_of_mem_zipIdx he)
    unfold Spec.at2 at h3
    cases hd : d.get? sl.name with
    | none => rw [hd] at h3; cases h3
    | some dc =>
      rw [hd] at h3
      have h3' : dc.get? e.1 = some l := h3
      dsimp only
      rw [h3']
      exact assignCol_ok f _ h1 h4

/-- a cell of the dense tensors: template, variances and variations have the size of the channel -/
structure DenseCell (N : Nat) (c : Cell V) : Prop where
  bound : c.start + c.n ≤ N
  norm : ∃ l, c.norm = .dense l ∧ l.length = c.n
  sumw2 : c.sumw2.length = c.n
  avg : ∀ m e, c.avg.get? m = some e → ∃ l, e = .dense l ∧ l.length = c.n
  half : ∀ m e, c.half.get? m = some e → ∃ l, e = .dense l ∧ l.length = c.n

theorem denseCell_of {s : State V} (hs : Sized s) {procs : List String} {lay : List Slot} {N : Nat}
    (hlay : ∀ sl ∈ lay, s.channels.get? sl.name = some sl.chan ∧ sl.n = chSize sl.chan ∧ sl.start + sl.n ≤ N)
    {c : Cell V} (hc : IsCell s procs lay c) : DenseCell N c := by
  obtain ⟨sl, hsl, e1, e2, e3⟩ := hc.slot
  obtain ⟨h1, h2, h3⟩ := hlay sl hsl
  obtain ⟨nc, hn1, hn2⟩ := hc.norm
  obtain ⟨wc, hw1, hw2⟩ := hc.sumw2
  obtain ⟨ac, ha1, ha2⟩ := hc.avg
  obtain ⟨bc, hb1, hb2⟩ := hc.half
  have hat : Spec.at2 s.norm c.chan c.proc = some c.norm := by unfold Spec.at2; rw [hn1]; exact hn2
  have hatw : Spec.at2 s.sumw2 c.chan c.proc = some c.sumw2 := by unfold Spec.at2; rw [hw1]; exact hw2
  rw [e1] at h1
  rw [e3] at h2
  obtain ⟨ch, hch, l, hl, hlen⟩ := hs.norm _ _ _ hat
  rw [h1] at hch
  cases hch
  obtain ⟨ch, w, hch, hw, hwl⟩ := hs.sumw2 _ _ _ hat
  rw [h1] at hch
  cases hch
  rw [hatw] at hw
  cases hw
  refine ⟨by rw [← e2, ← e3]; exact h3, ⟨l, hl, hlen.trans h2.symm⟩, hwl.trans h2.symm, fun m e he => ?_, fun m e he => ?_⟩
  · have h3 : Spec.at3 s.logkavg c.chan c.proc m = some e := by
      unfold Spec.at3 Spec.at2; rw [ha1]; dsimp only [Option.bind_some]; rw [ha2]; exact he
    obtain ⟨n, l', hn, h4, h5⟩ := hs.avg _ _ _ _ h3
    rw [hat] at hn
    cases hn
    rw [hl] at h5
    exact ⟨l', h4, h5.trans (hlen.trans h2.symm)⟩
  · have h3 : Spec.at3 s.logkhalf c.chan c.proc m = some e := by
      unfold Spec.at3 Spec.at2; rw [hb1]; dsimp only [Option.bind_some]; rw [hb2]; exact he
    obtain ⟨n, l', hn, h4, h5⟩ := hs.half _ _ _ _ h3
    rw [hat] at hn
    cases hn
    rw [hl] at h5
    exact ⟨l', h4, h5.trans (hlen.trans h2.symm)⟩

theorem fillDense_ok {N nproc : Nat} {systs : List String} {symmetric : Bool} {cells : List (Cell V)}
    (h : ∀ c ∈ cells, DenseCell N c) : (∃ f, fillSumw N cells = .ok f) ∧ (∃ f, fillSumw2 N cells = .ok f) ∧
      ∃ b, fillBody false N nproc systs symmetric cells = .ok b := by
  refine ⟨?_, ?_, ?_⟩
  · unfold fillSumw
    refine loop_ok (fun f c hc => ?_) _
    obtain ⟨l, h1, h2⟩ := (h c hc).norm
    rw [h1]
    exact assignCol_ok f _ (h c hc).bound h2
  · unfold fillSumw2
    exact loop_ok (fun f c hc => assignCol_ok f _ (h c hc).bound (h c hc).sumw2) _
  · unfold fillBody
    rw [if_neg (by simp)]
    have h1 : ∃ f, fillNormDense N cells = .ok f := by
      unfold fillNormDense
      refine loop_ok (fun f c hc => ?_) _
      obtain ⟨l, h1, h2⟩ := (h c hc).norm
      rw [h1]
      exact assignCol_ok f _ (h c hc).bound h2
    have h2 : ∃ f, fillLogkDense N symmetric (cells.flatMap (tasksOfCell systs)) = .ok f := by
      unfold fillLogkDense
      refine loop_ok (fun f t ht => ?_) _
      split
      · exact ⟨f, rfl⟩
      · obtain ⟨c, hc, htc⟩ := List.mem_flatMap.1 ht
        have hv : t.cell = c ∧ ∃ l, t.vals = .dense l ∧ l.length = c.n := by
          unfold tasksOfCell at htc
          obtain ⟨e, _, hte⟩ := List.mem_flatMap.1 htc
          cases ha : c.avg.get? e.1 with
          | none => rw [ha] at hte; cases hte
          | some v =>
            rw [ha] at hte
            rcases List.mem_cons.1 hte with rfl | hte
            · exact ⟨rfl, (h c hc).avg _ _ ha⟩
            · cases hb : c.half.get? e.1 with
              | none => rw [hb] at hte; cases hte
              | some hv =>
                rw [hb] at hte
                rw [List.mem_singleton.1 hte]
                exact ⟨rfl, (h c hc).half _ _ hb⟩
        obtain ⟨rfl, l, h1, h2⟩ := hv
        rw [h1]
        obtain ⟨g, hg⟩ := assign_ok (fun b => f b t.cell.iproc t.k t.isyst) (h t.cell hc).bound h2
        dsimp only
        rw [hg]; exact ⟨_, rfl⟩
    obtain ⟨f, hf⟩ := h1
    obtain ⟨g, hg⟩ := h2
    rw [hf, hg]; exact ⟨_, rfl⟩

/-- the covariance of a file without nuisances in the covariance and without statistical uncertainties in it -/
theorem cov_plain {N nproc : Nat} {sumw2 : Nat → Nat → V} {cells : List (Cell V)} {s : State V} {c : Option (Cov V)} :
    writeCov false N nproc sumw2 cells [] c s = (s, .ok c) := by
  cases c <;> rfl

theorem covLoop_total {N : Nat} {cells : List (Cell V)} {names : List String}
    (hv : ∀ m, ∃ v, systVector N cells m = .ok v) : ∀ {cov : Cov V} {s : State V}, cov.n = N →
    ∃ s' r, covLoop N cells cov names s = (s', .ok r) ∧ r.n = N := by
  induction names with
  | nil => exact fun {cov s} h => ⟨s, cov, rfl, h⟩
  | cons m names ih =>
    intro cov s h
    obtain ⟨v, hv'⟩ := hv m
    unfold covLoop
    rw [hv', lift_ok_bind]
    unfold addOuter
    rw [if_pos h, lift_ok_bind, modify_bind]
    exact ih h

theorem systVector_ok {N : Nat} {cells : List (Cell V)} (h : ∀ c ∈ cells, DenseCell N c) (m : String) :
    ∃ v, systVector N cells m = .ok v := by
  unfold systVector
  refine loop_ok (fun f c hc => ?_) _
  cases ha : c.avg.get? m with
  | none => exact ⟨f, rfl⟩
  | some e =>
    obtain ⟨l, rfl, hl⟩ := (h c hc).avg m e ha
    obtain ⟨g, hg⟩ := assign_ok (fun _ => (0 : V)) (h c hc).bound (show (LogkE.dense l).values.length = c.n from hl)
    dsimp only
    rw [hg]; exact ⟨_, rfl⟩

end Verif.Writer
