import Verif.Props.WriterTotal
import Verif.Lemmas.Origin

/-!
C107: Well-formed histories of calls are accepted, and complete ones can be written.
-/

namespace Verif.Writer

open Verif.Logk M

set_option linter.unusedSectionVars false

variable {V : Type} [Field V] [LinearOrder V]

/-! ### Specification: what a caller has to keep to -/

/-- what the calls of a caller have registered: channels; channels with data; sets of pseudo-data and processes by channel; names
of signals (`true`) and backgrounds -/
structure Spec.Book where
  chans : String → Option Chan
  data : String → Prop
  pseudo : String → String → Prop
  procs : String → String → Prop
  kind : Bool → String → Prop

def Spec.Book.empty : Spec.Book := ⟨fun _ => none, fun _ => False, fun _ _ => False, fun _ _ => False, fun _ _ => False⟩

/-- a call noted by its caller -/
def Spec.Book.note (K : Spec.Book) : Op V → Spec.Book
  | .channel axes name m f => { K with chans := fun c => if name = some c then some ⟨axes, m, f⟩ else K.chans c }
  | .data _ c _ => { K with data := fun c' => c' = c ∨ K.data c' }
  | .pseudo _ name c => { K with pseudo := fun c' n => (c' = c ∧ name = some n) ∨ K.pseudo c' n }
  | .process _ p c sig _ =>
    { K with procs := fun c' q => (c' = c ∧ q = p) ∨ K.procs c' q, kind := fun b q => (b = sig ∧ q = p) ∨ K.kind b q }
  | _ => K

/-- the notes after a history of calls -/
def Spec.Book.notes (K : Spec.Book) (ops : List (Op V)) : Spec.Book := ops.foldl Spec.Book.note K

/-- numbers -/
def Spec.numbers (l : List (FVal V)) : Prop := ∀ x ∈ l, ∃ v, x = .fin v

/-- numbers that are not negative -/
def Spec.variances (l : List (FVal V)) : Prop := ∀ x ∈ l, ∃ v, x = .fin v ∧ 0 ≤ v

/-- the variances that come with a histogram; other inputs are counts -/
def Spec.ownVars (flow : Bool) : HIn V → List (FVal V)
  | .hist _ _ vars => vars flow
  | h => h.flatVals flow

/-- the axes of a histogram, or the shape of another input, are those of the channel -/
def Spec.agrees (cfg : Cfg V) (c : Chan) : HIn V → Prop
  | .hist axes _ _ => List.Forall₂ (fun a b => cfg.close a b = true) c.axes axes
  | .sparseHist axes _ => List.Forall₂ (fun a b => cfg.close a b = true) c.axes axes
  | .scipy shape _ => prod shape = prod (dims false c.axes)
  | .array shape _ => shape = dims false c.axes

/-- one content and one variance for each bin -/
def Spec.perBin (c : Chan) (flow : Bool) (h : HIn V) : Prop :=
  (h.flatVals flow).length = prod (dims flow c.axes) ∧ (Spec.ownVars flow h).length = prod (dims flow c.axes)

/-- The calls that are fine after those in the book: a channel under a new name, flow bins only if it is masked; one data histogram
per channel; one histogram per channel and set of pseudo-data; one template per process and channel; variations of registered
processes only; one uncertainty, or one for each process, each a number, or a pair if pairs are averaged. -/
def Spec.Book.allows (cfg : Cfg V) (K : Spec.Book) : Op V → Prop
  | .channel _ name m f => (∃ c, name = some c ∧ K.chans c = none) ∧ (f = true → m = true)
  | .data h chan vars => ¬ K.data chan ∧ ∃ c, K.chans chan = some c ∧ Spec.agrees cfg c h ∧ Spec.perBin c false h ∧
      (∀ v, vars = some v → Spec.perBin c false v) ∧ Spec.variances (Spec.ownVars false (vars.getD h))
  | .dataCov _ => True
  | .pseudo h name chan => ∃ c, K.chans chan = some c ∧ Spec.agrees cfg c h ∧ Spec.perBin c false h ∧
      ∃ n, name = some n ∧ ¬ K.pseudo chan n
  | .process h p chan _ vars => ¬ K.procs chan p ∧ ∃ c, K.chans chan = some c ∧ Spec.agrees cfg c h ∧ Spec.perBin c c.flow h ∧
      Spec.numbers (h.flatVals c.flow) ∧ (∀ v, vars = some v → Spec.perBin c c.flow v) ∧
      Spec.variances (Spec.ownVars c.flow (vars.getD h))
  | .syst (.single h) _ p chan _ mirror _ toCov _ o => K.procs chan p ∧ (toCov = true → o.noi = false) ∧ mirror = true ∧
      ∃ c, K.chans chan = some c ∧ Spec.agrees cfg c h ∧ Spec.perBin c c.flow h ∧ Spec.numbers (h.flatVals c.flow)
  | .syst (.pair u d) _ p chan _ _ symm toCov _ o => K.procs chan p ∧ (toCov = true → o.noi = false ∧ symm ≠ .none) ∧
      ∃ c, K.chans chan = some c ∧ (Spec.agrees cfg c u ∧ Spec.perBin c c.flow u ∧ Spec.numbers (u.flatVals c.flow)) ∧
        Spec.agrees cfg c d ∧ Spec.perBin c c.flow d ∧ Spec.numbers (d.flatVals c.flow)
  | .normSyst _ procs chan unc toCov symm o => (∀ p ∈ procs, K.procs chan p) ∧ (toCov = true → o.noi = false) ∧
      (unc.length = 1 ∨ procs.length = unc.length) ∧
      ∀ u ∈ unc, (∃ v, u = .num v) ∨ ((∃ a b, u = .list [a, b]) ∧ (symm = .average ∨ symm = .conservative))
  | .write _ => False

/-- every call of the history is fine after those before it -/
def Spec.wellFormed (cfg : Cfg V) (K : Spec.Book) : List (Op V) → Prop
  | [] => True
  | op :: ops => K.allows cfg op ∧ Spec.wellFormed cfg (K.note op) ops

/-- nothing is missing: data and all sets of pseudo-data for every channel that is fitted; no name of a signal and a background -/
structure Spec.Book.full (K : Spec.Book) : Prop where
  kinds : ∀ p, ¬ (K.kind true p ∧ K.kind false p)
  data : ∀ chan c, K.chans chan = some c → c.masked = false → K.data chan
  pseudo : ∀ chan c, K.chans chan = some c → c.masked = false → ∀ chan' n, K.pseudo chan' n → K.pseudo chan n

/-- the data covariance given last -/
def Spec.givenCov (ops : List (Op V)) : Option (Cov V) :=
  ops.foldl (fun c op => match op with
    | .dataCov cov => some cov
    | _ => c) none

/-- the call does not ask for a contribution to the data covariance -/
def Spec.noCov : Op V → Prop
  | .syst _ _ _ _ _ _ _ toCov _ _ => toCov = false
  | .normSyst _ _ _ _ toCov _ _ => toCov = false
  | _ => True

/-! ### The writer agrees with the book -/

structure Tracks (K : Spec.Book) (s : State V) : Prop where
  chans : ∀ c, s.channels.get? c = K.chans c
  data : ∀ c, s.dataObs.has c = true ↔ K.data c
  var : ∀ c, K.data c → s.dataVar.has c = true
  pseudo : ∀ c n, (∃ l, Spec.at2 s.pseudo c n = some l) ↔ K.pseudo c n
  names : ∀ n, n ∈ s.pseudoNames ↔ ∃ c, K.pseudo c n
  procs : ∀ c p, (∃ n, Spec.at2 s.norm c p = some n) ↔ K.procs c p
  signals : ∀ p, p ∈ s.signals ↔ K.kind true p
  bkgs : ∀ p, p ∈ s.bkgs ↔ K.kind false p

theorem Tracks.of_core {K : Spec.Book} {s s' : State V} (h : core s' = core s) (T : Tracks K s) : Tracks K s' := by
  simp only [core, Core.mk.injEq] at h
  obtain ⟨h1, h2, h3, h4, h5, h6, h7, h8, h9, h10, h11⟩ := h
  exact ⟨by rw [h3]; exact T.chans, by rw [h6]; exact T.data, by rw [h7]; exact T.var, by rw [h9]; exact T.pseudo,
    by rw [h5]; exact T.names, by rw [h10]; exact T.procs, by rw [h1]; exact T.signals, by rw [h2]; exact T.bkgs⟩

theorem finites_ok {l : List (FVal V)} (h : Spec.numbers l) : ∃ v, finites l = some v ∧ v.length = l.length := by
  induction l with
  | nil => exact ⟨[], rfl, rfl⟩
  | cons x l ih =>
    obtain ⟨v, hv⟩ := h x List.mem_cons_self
    obtain ⟨w, hw, hl⟩ := ih fun y hy => h y (List.mem_cons_of_mem _ hy)
    rw [finites_eq_some] at hw
    refine ⟨v :: w, ?_, by simp [hl]⟩
    rw [finites_eq_some, hv, hw]
    rfl

theorem flatVars_ok [IsStrictOrderedRing V] {flow : Bool} {h : HIn V} (hv : Spec.variances (Spec.ownVars flow h)) :
    h.flatVars flow = .ok (Spec.ownVars flow h) := by
  have e : h.flatVars flow = if (Spec.ownVars flow h).any FVal.neg then .error .value else .ok (Spec.ownVars flow h) := by
    cases h <;> rfl
  rw [e, if_neg]
  intro ha
  obtain ⟨x, hx, hn⟩ := List.any_eq_true.1 ha
  obtain ⟨v, rfl, h0⟩ := hv x hx
  simp only [FVal.neg, decide_eq_true_eq] at hn
  exact absurd hn (not_lt.2 h0)

theorem fullSize_of {c : Chan} {flow : Bool} {h : HIn V} (hp : Spec.perBin c flow h) : Spec.fullSize flow c.axes h := by
  refine ⟨hp.1, fun v hv => ?_⟩
  have e : h.flatVars flow = if (Spec.ownVars flow h).any FVal.neg then .error .value else .ok (Spec.ownVars flow h) := by
    cases h <;> rfl
  rw [e] at hv
  split at hv
  · cases hv
  · cases hv
    exact hp.2

theorem checkAxes_ok {close : Axis → Axis → Bool} {l m : List Axis} (h : List.Forall₂ (fun a b => close a b = true) l m) :
    checkAxes close l m = .ok () := by
  induction h with
  | nil => rfl
  | cons h _ ih => rw [checkAxes, if_pos h, ih]

theorem checkHist_of {cfg : Cfg V} {ch : Dict String Chan} {chan : String} {c : Chan} (hc : ch.get? chan = some c) {h : HIn V}
    (ha : Spec.agrees cfg c h) : checkHist cfg ch h chan = .ok c := by
  unfold checkHist
  rw [hc]
  cases h with
  | hist axes vals vars => dsimp only; rw [checkAxes_ok ha]; rfl
  | sparseHist axes flat => dsimp only; rw [checkAxes_ok ha]; rfl
  | scipy shape flat => dsimp only; exact if_pos ha
  | array shape vals => dsimp only; exact if_pos ha

theorem clip_numbers {l : List (FVal V)} (h : Spec.numbers l) : Spec.numbers (l.map FVal.clip0) := by
  intro x hx
  obtain ⟨y, hy, rfl⟩ := List.mem_map.1 hx
  obtain ⟨v, rfl⟩ := h y hy
  exact ⟨max v 0, rfl⟩

theorem at2_get {ν : Type} {d : Dict String (Dict String ν)} {a b : String} {v : ν} (h : Spec.at2 d a b = some v) :
    ∃ i, d.get? a = some i ∧ i.get? b = some v := by
  unfold Spec.at2 at h
  cases hc : d.get? a with
  | none => rw [hc] at h; cases h
  | some i => rw [hc] at h; exact ⟨i, rfl, h⟩

theorem upd2_ok {ν : Type} {d : Dict String (Dict String ν)} {a b : String} {v : ν} (h : d.has a = true) : ∃ d', upd2 d a b v = .ok d' := by
  obtain ⟨i, hi⟩ := (Dict.has_iff _ _).1 h
  unfold upd2
  rw [hi]
  exact ⟨_, rfl⟩

/-! ### Bookings that are not refused -/

/-- the statement is not refused as long as the template `n` of the process is stored, and keeps the templates -/
def Goes (chan p : String) (n : Norm V) {α : Type} (m : M V α) (Q : α → Prop) : Prop :=
  ∀ s : State V, Spec.ready s → Spec.at2 s.norm chan p = some n →
    ∃ s' a, m s = (s', .ok a) ∧ Spec.ready s' ∧ s'.norm = s.norm ∧ Q a

theorem Goes.bind {chan p : String} {n : Norm V} {α β : Type} {m : M V α} {f : α → M V β} {Q : α → Prop} {R : β → Prop}
    (hm : Goes chan p n m Q) (hf : ∀ a, Q a → Goes chan p n (f a) R) : Goes chan p n (m >>= f) R := by
  intro s hs hn
  obtain ⟨s', a, h1, h2, h3, h4⟩ := hm s hs hn
  obtain ⟨s2, b, k1, k2, k3, k4⟩ := hf a h4 s' h2 (by rw [h3]; exact hn)
  exact ⟨s2, b, by rw [bind_def, h1]; exact k1, k2, k3.trans h3, k4⟩

theorem Goes.lift {chan p : String} {n : Norm V} {α : Type} {r : Res α} {Q : α → Prop} (h : ∃ a, r = .ok a ∧ Q a) :
    Goes chan p n (M.lift r) Q := by
  obtain ⟨a, rfl, hq⟩ := h
  exact fun s hs _ => ⟨s, a, rfl, hs, rfl, hq⟩

theorem Goes.pure {chan p : String} {n : Norm V} {α : Type} {a : α} {Q : α → Prop} (h : Q a) : Goes chan p n (M.pure a) Q :=
  fun s hs _ => ⟨s, a, rfl, hs, rfl, h⟩

theorem goes_bookLogk (cfg : Cfg V) (half : Bool) (chan p nm : String) (n : Norm V) (l : List V) (hl : l.length = n.vals.length) :
    Goes chan p n (bookLogk cfg half (wrap n.idx l) chan (some p) nm) fun _ => True := by
  intro s hs hn
  rcases bookLogk_out cfg half (wrap n.idx l) chan p nm s hs hn with ⟨e', k1, _⟩ | ⟨_, s', _, k2, k3, k4⟩
  · obtain ⟨e, he⟩ := (bookedLogk_ok_iff cfg n l).2 (.inr (.inl hl.symm))
    rw [he] at k1
    cases k1
  · exact ⟨s', (), k2, k4, k3, trivial⟩

theorem goes_bookSystematic (chan p nm : String) (n : Norm V) (toCov : Bool) (o : SystOpts) (ho : toCov = true → o.noi = false) :
    Goes chan p n (bookSystematic nm toCov o : M V Unit) fun _ => True := by
  intro s hs hn
  obtain ⟨s', h1, h2⟩ := bookSystematic_out nm toCov o (by cases toCov <;> simp_all) s
  exact ⟨s', (), h1, ready_of_tab h2 hs, congrArg Prod.fst h2, trivial⟩

theorem zipB_eq {α β γ : Type} (f : α → β → γ) {a : List α} {b : List β} {k : Nat} (ha : a.length = k) (hb : b.length = k) :
    ∃ r, zipB f a b = .ok r ∧ r.length = k := by
  unfold zipB
  rw [if_pos (ha.trans hb.symm)]
  exact ⟨_, rfl, by rw [List.length_zipWith, ha, hb, Nat.min_self]⟩

theorem goes_asym (cfg : Cfg V) (up dn : List V) (name chan p : String) (n : Norm V) (proc : Option String) (symm : Symm) (toCov : Bool)
    (o : SystOpts) (hu : up.length = n.vals.length) (hd : dn.length = n.vals.length)
    (hp : proc = some p ∨ symm = .average ∨ symm = .conservative) (ho : toCov = true → o.noi = false) (hs : toCov = true → symm ≠ .none) :
    Goes chan p n (computeAsymSyst cfg up dn name proc chan symm toCov n.idx o) fun r => r.1.length = n.vals.length := by
  unfold computeAsymSyst
  refine Goes.bind (Goes.lift (zipB_eq _ hu hd)) fun avg havg => ?_
  cases symm with
  | conservative => exact Goes.pure havg
  | average => exact Goes.pure havg
  | linear =>
    have hp' : proc = some p := by rcases hp with h | h | h <;> [exact h; cases h; cases h]
    subst hp'
    exact Goes.bind (Goes.lift (zipB_eq _ hu hd)) fun diff hdiff => Goes.bind (goes_bookLogk cfg _ _ _ _ _ _ hdiff) fun _ _ =>
      Goes.bind (goes_bookSystematic _ _ _ _ _ _ ho) fun _ _ => Goes.pure havg
  | quadratic =>
    have hp' : proc = some p := by rcases hp with h | h | h <;> [exact h; cases h; cases h]
    subst hp'
    exact Goes.bind (Goes.lift (zipB_eq _ hu hd)) fun diff hdiff => Goes.bind (goes_bookLogk cfg _ _ _ _ _ _ hdiff) fun _ _ =>
      Goes.bind (goes_bookSystematic _ _ _ _ _ _ ho) fun _ _ => Goes.pure havg
  | none =>
    have hp' : proc = some p := by rcases hp with h | h | h <;> [exact h; cases h; cases h]
    subst hp'
    have ht : toCov = false := by
      cases toCov with
      | false => rfl
      | true => exact absurd rfl (hs rfl)
    subst ht
    refine Goes.bind (Q := fun _ => True) (fun s hs _ => ⟨s, (), rfl, hs, rfl, trivial⟩) fun _ _ => ?_
    refine Goes.bind (Q := fun _ => True) (fun s hs _ => ⟨_, (), rfl, ready_of_tab (s := s) rfl hs, rfl, trivial⟩) fun _ _ => ?_
    exact Goes.bind (Goes.lift (zipB_eq _ hu hd)) fun diff hdiff => Goes.bind (goes_bookLogk cfg _ _ _ _ _ _ hdiff) fun _ _ =>
      Goes.pure havg

theorem effType_ne {cfg : Cfg V} (ht : cfg.systType ≠ .other) (toCov : Bool) : effType cfg toCov ≠ .other := by
  unfold effType
  split
  · intro h; cases h
  · exact ht

theorem logkVals_ok (N : Num V) {t : SystType} (ht : t ≠ .other) (k : V) {sv : List (FVal V)} {norm : List V} (hn : Spec.numbers sv)
    (hl : sv.length = norm.length) : ∃ r, logkVals N t k sv norm = .ok r ∧ r.length = norm.length := by
  obtain ⟨v, hv, hvl⟩ := finites_ok hn
  unfold logkVals
  rw [hv]
  dsimp only
  rw [if_neg ht]
  exact zipB_eq _ (hvl.trans hl) rfl

theorem applyDiff_ok (asDiff : Bool) {norm : List V} {sv : List (FVal V)} (hn : Spec.numbers sv) (hl : sv.length = norm.length) :
    ∃ r, applyDiff asDiff norm sv = .ok r ∧ Spec.numbers r ∧ r.length = norm.length := by
  unfold applyDiff
  split
  · unfold zipB
    rw [if_pos hl.symm]
    refine ⟨_, rfl, fun x hx => ?_, by rw [List.length_zipWith, hl, Nat.min_self]⟩
    obtain ⟨i, hi⟩ := List.mem_iff_getElem?.1 hx
    rw [List.getElem?_zipWith] at hi
    cases h1 : norm[i]? with
    | none => simp [h1] at hi
    | some a =>
      cases h2 : sv[i]? with
      | none => simp [h1, h2] at hi
      | some y =>
        obtain ⟨v, rfl⟩ := hn y (List.mem_of_getElem? h2)
        rw [h1, h2] at hi
        cases hi
        exact ⟨a + v, rfl⟩
  · exact ⟨sv, rfl, hn, hl⟩

/-- a variation given as histograms is accepted -/
theorem syst_accepts {cfg : Cfg V} (ht : cfg.systType ≠ .other) {s : State V} (hs : Spec.ready s) {x : SystIn V} {name p chan : String}
    {k : V} {mirror : Bool} {symm : Symm} {toCov asDiff : Bool} {o : SystOpts} {K : Spec.Book} (T : Tracks K s) (hz : Sized s)
    (hal : K.allows cfg (.syst x name p chan k mirror symm toCov asDiff o)) :
    (addSystematic cfg x name p chan k mirror symm toCov asDiff o s).2 = .ok () := by
  have key : ∀ {n : Norm V} {m : M V Unit}, Spec.at2 s.norm chan p = some n → Goes chan p n m (fun _ => True) → (m s).2 = .ok () := by
    intro n m hn hg
    obtain ⟨s', a, h1, _⟩ := hg s hs hn
    rw [h1]
  have hpr : K.procs chan p := by cases x <;> exact hal.1
  obtain ⟨n, hn⟩ := (T.procs chan p).2 hpr
  obtain ⟨ch, hch, l, rfl, hll⟩ := hz.norm _ _ _ hn
  obtain ⟨nc, hnc, hnp⟩ := at2_get hn
  unfold addSystematic
  rw [read_bind]
  simp only [Dict.get, hnc, hnp, hch, lift_ok_bind]
  have hsz : ∀ {c : Chan} {h : HIn V}, K.chans chan = some c → Spec.perBin c c.flow h → c = ch ∧ (h.flatVals ch.flow).length = l.length := by
    intro c h hc hp
    rw [← T.chans, hch] at hc
    cases hc
    exact ⟨rfl, hp.1.trans hll.symm⟩
  cases x with
  | single h =>
    obtain ⟨_, ho, rfl, c, hc, ha, hp, hnum⟩ := hal
    obtain ⟨rfl, hlen⟩ := hsz hc hp
    refine key hn ?_
    refine Goes.bind (Q := fun _ => True) (fun s hs _ => ⟨s, (), rfl, hs, rfl, trivial⟩) fun _ _ => ?_
    refine Goes.bind (Q := fun _ => True) (Goes.lift ⟨_, checkHist_of hch ha, trivial⟩) fun _ _ => ?_
    refine Goes.bind (Q := fun sv => sv = h.flatVals c.flow) (Goes.lift ⟨_, rfl, rfl⟩) fun sv hsv => ?_
    subst hsv
    refine Goes.bind (Goes.lift (applyDiff_ok asDiff hnum hlen)) fun sv hsv => ?_
    refine Goes.bind (Goes.lift (logkVals_ok cfg.num (effType_ne ht toCov) k hsv.1 hsv.2)) fun lk hlk => ?_
    exact Goes.bind (goes_bookLogk cfg _ _ _ _ (.dense l) _ hlk) fun _ _ => goes_bookSystematic _ _ _ _ _ _ ho
  | pair u d =>
    obtain ⟨_, ho, c, hc, ⟨ha, hp, hnum⟩, ha', hp', hnum'⟩ := hal
    obtain ⟨rfl, hlen⟩ := hsz hc hp
    obtain ⟨-, hlen'⟩ := hsz hc hp'
    refine key hn ?_
    refine Goes.bind (Q := fun _ => True) (Goes.lift ⟨_, checkHist_of hch ha, trivial⟩) fun _ _ => ?_
    refine Goes.bind (Q := fun _ => True) (Goes.lift ⟨_, checkHist_of hch ha', trivial⟩) fun _ _ => ?_
    refine Goes.bind (Q := fun sv => sv = u.flatVals c.flow) (Goes.lift ⟨_, rfl, rfl⟩) fun su hsu => ?_
    refine Goes.bind (Q := fun sv => sv = d.flatVals c.flow) (Goes.lift ⟨_, rfl, rfl⟩) fun sd hsd => ?_
    subst hsu hsd
    refine Goes.bind (Goes.lift (applyDiff_ok asDiff hnum hlen)) fun su hsu => ?_
    refine Goes.bind (Goes.lift (applyDiff_ok asDiff hnum' hlen')) fun sd hsd => ?_
    refine Goes.bind (Goes.lift (logkVals_ok cfg.num (effType_ne ht toCov) k hsu.1 hsu.2)) fun up hup => ?_
    refine Goes.bind (Goes.lift (logkVals_ok cfg.num (effType_ne ht toCov) k hsd.1 hsd.2)) fun dn hdn => ?_
    refine Goes.bind (goes_asym cfg _ _ _ _ _ (.dense l) _ _ _ _ hup (by rw [List.length_map]; exact hdn) (.inl rfl) (fun h => (ho h).1)
      (fun h => (ho h).2)) fun r hr => ?_
    exact Goes.bind (goes_bookLogk cfg _ _ _ _ (.dense l) _ hr) fun _ _ => goes_bookSystematic _ _ _ _ _ _ fun h => (ho h).1

theorem scaled_numbers (l : List V) (u : V) : Spec.numbers (l.map fun v => FVal.fin (v * u)) := fun x hx => by
  obtain ⟨v, _, rfl⟩ := List.mem_map.1 hx
  exact ⟨_, rfl⟩

/-- one normalisation uncertainty is accepted -/
theorem normOne_accepts {cfg : Cfg V} (ht : cfg.systType ≠ .other) (name chan : String) (toCov : Bool) (symm : Symm) (o : SystOpts)
    (v p : String) (u : Unc V) (hu : (∃ v, u = .num v) ∨ ((∃ a b, u = .list [a, b]) ∧ (symm = .average ∨ symm = .conservative)))
    (ho : toCov = true → o.noi = false) {s : State V} (hs : Spec.ready s) {n : Norm V} (hn : Spec.at2 s.norm chan p = some n) :
    ∃ s' w, normOne cfg name chan toCov symm o v p u s = (s', .ok w) ∧ Spec.ready s' ∧ s'.norm = s.norm := by
  have key : ∀ {m : M V String}, Goes chan p n m (fun _ => True) → ∃ s' w, m s = (s', .ok w) ∧ Spec.ready s' ∧ s'.norm = s.norm := by
    intro m hg
    obtain ⟨s', a, h1, h2, h3, _⟩ := hg s hs hn
    exact ⟨s', a, h1, h2, h3⟩
  obtain ⟨nc, hnc, hnp⟩ := at2_get hn
  unfold normOne
  rw [read_bind]
  simp only [Dict.get, hnc, hnp, lift_ok_bind]
  have hlk : ∀ a, ∃ r, logkVals cfg.num (effType cfg toCov) 1 (n.vals.map fun v => FVal.fin (v * a)) n.vals = .ok r ∧ r.length = n.vals.length :=
    fun a => logkVals_ok cfg.num (effType_ne ht toCov) 1 (scaled_numbers _ _) (List.length_map _)
  rcases hu with ⟨a, rfl⟩ | ⟨⟨a, b, rfl⟩, hsy⟩
  · refine key ?_
    exact Goes.bind (Goes.lift (hlk a)) fun lk h => Goes.bind (goes_bookLogk cfg _ _ _ _ _ _ h) fun _ _ => Goes.pure trivial
  · refine key ?_
    refine Goes.bind (Goes.lift (hlk a)) fun up hup => Goes.bind (Goes.lift (hlk b)) fun dn hdn => ?_
    refine Goes.bind (goes_asym cfg _ _ _ _ p n _ _ _ _ hup (by rw [List.length_map]; exact hdn) (.inr hsy) ho ?_) fun r hr => ?_
    · intro _ h
      rw [h] at hsy
      rcases hsy with h | h <;> cases h
    · exact Goes.bind (goes_bookLogk cfg _ _ _ _ _ _ hr) fun _ _ => Goes.pure trivial

theorem normLoop_accepts {cfg : Cfg V} (ht : cfg.systType ≠ .other) (name chan : String) (toCov : Bool) (symm : Symm) (o : SystOpts)
    (ho : toCov = true → o.noi = false) (l : List (String × Unc V)) : ∀ (v : String) {s : State V}, Spec.ready s →
      (∀ x ∈ l, (∃ n, Spec.at2 s.norm chan x.1 = some n) ∧
        ((∃ v, x.2 = .num v) ∨ ((∃ a b, x.2 = .list [a, b]) ∧ (symm = .average ∨ symm = .conservative)))) →
      ∃ s' w, normLoop cfg name chan toCov symm o v l s = (s', .ok w) := by
  induction l with
  | nil => exact fun v s _ _ => ⟨s, v, rfl⟩
  | cons x l ih =>
    obtain ⟨p, u⟩ := x
    intro v s hs hl
    obtain ⟨⟨n, hn⟩, hu⟩ := hl _ List.mem_cons_self
    obtain ⟨s', w, h1, h2, h3⟩ := normOne_accepts ht name chan toCov symm o v p u hu ho hs hn
    unfold normLoop
    rw [bind_def, h1]
    refine ih w h2 fun x hx => ?_
    rw [h3]
    exact hl x (List.mem_cons_of_mem _ hx)

/-- a normalisation uncertainty is accepted -/
theorem norm_accepts {cfg : Cfg V} (ht : cfg.systType ≠ .other) {s : State V} (hs : Spec.ready s) {name chan : String} {procs : List String}
    {unc : List (Unc V)} {toCov : Bool} {symm : Symm} {o : SystOpts} {K : Spec.Book} (T : Tracks K s)
    (hal : K.allows cfg (.normSyst name procs chan unc toCov symm o)) :
    (addNormSystematic cfg name procs chan unc toCov symm o s).2 = .ok () := by
  obtain ⟨hp, ho, hl, hu⟩ := hal
  obtain ⟨s', w, h⟩ := normLoop_accepts ht name chan toCov symm o ho (procs.zip unc) name hs fun x hx =>
    ⟨(T.procs _ _).2 (hp _ (List.of_mem_zip hx).1), hu _ (List.of_mem_zip hx).2⟩
  obtain ⟨s2, h2, _⟩ := bookSystematic_out w toCov o (by cases toCov <;> simp_all) s'
  unfold addNormSystematic
  rw [raiseIf_bind, if_neg]
  · rw [bind_def, h]
    dsimp only
    rw [h2]
  · rcases hl with h | h <;> simp [h]

/-! ### One call -/

theorem at2_set_nil {ν : Type} {d : Dict String (Dict String ν)} {a c p : String} (ha : ∀ p, Spec.at2 d a p = none) :
    Spec.at2 (d.set a []) c p = Spec.at2 d c p := by
  by_cases h : a = c
  · subst h
    rw [ha]
    unfold Spec.at2
    rw [Dict.get?_set_self]
    rfl
  · unfold Spec.at2
    rw [Dict.get?_set_ne _ _ h]

variable [IsStrictOrderedRing V]

theorem procNorm_ok {cfg : Cfg V} (hd : cfg.sparse = false) {h : HIn V} {flow : Bool} (hn : Spec.numbers (h.flatVals flow)) :
    ∃ n, procNorm cfg h flow = .ok n := by
  unfold procNorm
  rw [hd]
  simp only [Bool.false_and, Bool.false_eq_true, if_false]
  cases cfg.allowNeg with
  | true =>
    obtain ⟨v, hv, _⟩ := finites_ok hn
    simp only [if_true, hv]
    exact ⟨_, rfl⟩
  | false =>
    obtain ⟨v, hv, _⟩ := finites_ok (clip_numbers hn)
    simp only [Bool.false_eq_true, if_false, hv]
    exact ⟨_, rfl⟩

theorem procSumw2_ok {h : HIn V} {vars : Option (HIn V)} {flow : Bool} (hv : Spec.variances (Spec.ownVars flow (vars.getD h))) :
    ∃ l, procSumw2 h vars flow = .ok l := by
  have hn : ∀ {l : List (FVal V)}, Spec.variances l → Spec.numbers l := fun h x hx => by
    obtain ⟨v, e, _⟩ := h x hx
    exact ⟨v, e⟩
  have fin : ∀ {vs : List (FVal V)}, Spec.numbers vs → ∃ l, (match finites vs with
      | none => (.error .runtime : Res (List V))
      | some l => .ok l) = .ok l := by
    intro vs h
    obtain ⟨v, h3, _⟩ := finites_ok h
    rw [h3]
    exact ⟨v, rfl⟩
  unfold procSumw2
  cases vars with
  | some v =>
    simp only [Option.getD_some] at hv
    simp only [flatVars_ok hv]
    exact fin (hn hv)
  | none =>
    simp only [Option.getD_none] at hv
    cases hs : h.isSparse with
    | true =>
      simp only [if_true]
      refine fin (hn ?_)
      cases h <;> first | exact hv | cases hs
    | false =>
      simp only [Bool.false_eq_true, if_false, flatVars_ok hv]
      exact fin (hn hv)

/-- a set of pseudo-data is accepted -/
theorem addPseudo_of {cfg : Cfg V} {h : HIn V} {nm chan : String} {s : State V} {c : Chan} (hc : checkHist cfg s.channels h chan = .ok c)
    (hn : Dict.has ((s.pseudo.get? chan).getD []) nm = false) : addPseudo cfg h (some nm) chan s =
      ({ s with pseudoNames := setAdd s.pseudoNames nm,
                pseudo := s.pseudo.set chan (((s.pseudo.get? chan).getD []).set nm (h.flatVals false)) }, .ok ()) := by
  unfold addPseudo
  rw [read_bind, hc, lift_ok_bind, modify_bind, modify_bind, read_bind]
  cases hp : s.pseudo.get? chan with
  | some pc =>
    rw [hp] at hn
    have hhas : s.pseudo.has chan = true := (Dict.has_iff _ _).2 ⟨pc, hp⟩
    simp only [Option.getD_some] at hn
    simp only [hhas, if_true, Dict.get, hp, Option.getD_some, lift_ok_bind, raiseIf_bind, hn, Bool.false_eq_true, if_false, upd2]
    rfl
  | none =>
    have hhas : s.pseudo.has chan = false := (Dict.has_eq_false_iff _ _).2 hp
    simp only [hhas, Bool.false_eq_true, if_false, Dict.get, Option.getD_none, Option.getD_some, Dict.get?_set_self, lift_ok_bind,
      raiseIf_bind]
    simp only [show Dict.has ([] : Dict String (List (FVal V))) nm = false from rfl, Bool.false_eq_true, if_false, upd2,
      Dict.get?_set_self, lift_ok_bind, dict_set_set]
    rfl

theorem step_ok {cfg : Cfg V} (hd : cfg.sparse = false) (ht : cfg.systType ≠ .other) {K : Spec.Book} {s : State V} (T : Tracks K s)
    (hs : Spec.ready s) (hz : Sized s) (hl : LayInv s) {op : Op V} (hal : K.allows cfg op) :
    (step cfg op s).2 = .ok () ∧ Tracks (K.note op) (step cfg op s).1 ∧
      (∀ chan, Spec.addsChannel s chan op → s.channels.has chan = false) ∧ Spec.fitsOp s op := by
  have hget : ∀ {chan c}, K.chans chan = some c → s.channels.get? chan = some c := fun h => by rw [T.chans]; exact h
  have hfit : ∀ {chan c} {P : Chan → Prop}, K.chans chan = some c → P c → ∀ c', s.channels.get? chan = some c' → P c' := by
    intro chan c P hc hp c' hc'
    rw [hget hc] at hc'
    cases hc'
    exact hp
  cases op with
  | channel axes name m f =>
    obtain ⟨⟨c, rfl, hc⟩, hf⟩ := hal
    have hnew : s.channels.has c = false := by rw [Dict.has_eq_false_iff, T.chans]; exact hc
    have hn0 : ∀ p, Spec.at2 s.norm c p = none := by
      intro p
      cases h : Spec.at2 s.norm c p with
      | none => rfl
      | some n =>
        obtain ⟨ch, hch, _⟩ := hz.norm _ _ _ h
        rw [T.chans, hc] at hch
        cases hch
    have hflow : (f && !m) = false := by cases f <;> cases m <;> simp_all
    have e : step cfg (.channel axes (some c) m f) s = ({ s with
        nbinschan := s.nbinschan.set c (prod (dims f axes))
        norm := s.norm.set c []
        sumw2 := s.sumw2.set c []
        channels := insertChannel s.channels c ⟨axes, m, f⟩
        logkavg := s.logkavg.set c []
        logkhalf := s.logkhalf.set c [] }, .ok ()) := by
      simp only [step, addChannel]
      rw [raiseIf_bind, hflow]
      rfl
    rw [e]
    refine ⟨rfl, ⟨fun c' => ?_, T.data, T.var, T.pseudo, T.names, fun c' p => ?_, T.signals, T.bkgs⟩, ?_, trivial⟩
    · dsimp only [Spec.Book.note]
      rw [insertChannel_get hnew hl.nodup, T.chans]
      by_cases h : c = c'
      · subst h; rw [if_pos rfl, if_pos rfl]
      · rw [if_neg (fun e => h e.symm), if_neg (fun e => h (Option.some.inj e))]
    · show (∃ n, Spec.at2 (s.norm.set c []) c' p = some n) ↔ _
      rw [at2_set_nil hn0]
      exact T.procs c' p
    · rintro chan rfl
      exact hnew
  | data h chan vars =>
    obtain ⟨hnd, c, hc, ha, hp, hv, hvar⟩ := hal
    have hno : s.dataObs.has chan = false := by
      rw [Bool.eq_false_iff]
      exact fun h => hnd ((T.data _).1 h)
    have e : step cfg (.data h chan vars) s = ({ s with
        dataObs := s.dataObs.set chan (h.flatVals false)
        dataVar := s.dataVar.set chan (Spec.ownVars false (vars.getD h)) }, .ok ()) := by
      simp only [step, addData]
      rw [read_bind, checkHist_of (hget hc) ha, lift_ok_bind, raiseIf_bind, hno, flatVars_ok hvar]
      rfl
    rw [e]
    refine ⟨rfl, ⟨T.chans, fun c' => ?_, fun c' h => ?_, T.pseudo, T.names, T.procs, T.signals, T.bkgs⟩, fun _ h => h.elim, ?_⟩
    · show (s.dataObs.set chan _).has c' = true ↔ c' = chan ∨ K.data c'
      rw [Dict.has_set, Bool.or_eq_true, decide_eq_true_eq, T.data, eq_comm]
    · show (s.dataVar.set chan _).has c' = true
      rw [Dict.has_set, Bool.or_eq_true, decide_eq_true_eq]
      rcases h with h | h
      · exact .inl h.symm
      · exact .inr (T.var _ h)
    · exact hfit (P := fun c => Spec.fullSize false c.axes h ∧ ∀ v, vars = some v → Spec.fullSize false c.axes v) hc
        ⟨fullSize_of hp, fun v h => fullSize_of (hv v h)⟩
  | dataCov cov => exact ⟨rfl, ⟨T.1, T.2, T.3, T.4, T.5, T.6, T.7, T.8⟩, fun _ h => h.elim, trivial⟩
  | pseudo h name chan =>
    obtain ⟨c, hc, ha, hp, n, rfl, hn⟩ := hal
    have hat : ∀ c' m, Spec.at2 s.pseudo c' m = Dict.get? ((s.pseudo.get? c').getD []) m := by
      intro c' m
      unfold Spec.at2
      cases s.pseudo.get? c' <;> rfl
    have hh : Dict.has ((s.pseudo.get? chan).getD []) n = false := by
      rw [Bool.eq_false_iff]
      intro h
      obtain ⟨l, hl⟩ := (Dict.has_iff _ _).1 h
      exact hn ((T.pseudo _ _).1 ⟨l, by rw [hat]; exact hl⟩)
    have e : step cfg (.pseudo h (some n) chan) s = _ := addPseudo_of (checkHist_of (hget hc) ha) hh
    rw [e]
    refine ⟨rfl, ⟨T.chans, T.data, T.var, fun c' m => ?_, fun m => ?_, T.procs, T.signals, T.bkgs⟩, fun _ h => h.elim, ?_⟩
    · show (∃ l, Spec.at2 (s.pseudo.set chan _) c' m = some l) ↔ (c' = chan ∧ some n = some m) ∨ K.pseudo c' m
      rw [← T.pseudo]
      by_cases hcc : chan = c'
      · subst hcc
        have : Spec.at2 (s.pseudo.set chan (((s.pseudo.get? chan).getD []).set n (h.flatVals false))) chan m =
            if n = m then some (h.flatVals false) else Spec.at2 s.pseudo chan m := by
          rw [hat chan m]
          unfold Spec.at2
          rw [Dict.get?_set_self, Option.bind_some, Dict.get?_set]
        rw [this]
        by_cases hm : n = m
        · rw [if_pos hm]
          exact ⟨fun _ => .inl ⟨rfl, by rw [hm]⟩, fun _ => ⟨_, rfl⟩⟩
        · rw [if_neg hm]
          exact ⟨.inr, fun h => h.resolve_left fun h => hm (Option.some.inj h.2)⟩
      · unfold Spec.at2
        rw [Dict.get?_set_ne _ _ hcc]
        exact ⟨.inr, fun h => h.resolve_left fun h => hcc h.1.symm⟩
    · show m ∈ setAdd s.pseudoNames n ↔ ∃ c', (c' = chan ∧ some n = some m) ∨ K.pseudo c' m
      rw [mem_setAdd, T.names]
      constructor
      · rintro (⟨c', h⟩ | rfl)
        · exact ⟨c', .inr h⟩
        · exact ⟨chan, .inl ⟨rfl, rfl⟩⟩
      · rintro ⟨c', ⟨_, h⟩ | h⟩
        · exact .inr (Option.some.inj h).symm
        · exact .inl ⟨c', h⟩
    · exact hfit (P := fun c => Spec.fullSize false c.axes h) hc (fullSize_of hp)
  | process h p chan sig vars =>
    obtain ⟨hnp, c, hc, ha, hp, hnum, hv, hvar⟩ := hal
    obtain ⟨o1, o2, o3, o4⟩ := hz.outer _ _ (hget hc)
    obtain ⟨nc, hnc⟩ := (Dict.has_iff _ _).1 o1
    have hno : nc.has p = false := by
      rw [Bool.eq_false_iff]
      intro h
      obtain ⟨n, hn⟩ := (Dict.has_iff _ _).1 h
      refine hnp ((T.procs _ _).1 ⟨n, ?_⟩)
      unfold Spec.at2
      rw [hnc]
      exact hn
    obtain ⟨avg, havg⟩ := upd2_ok (b := p) (v := ([] : Dict String (LogkE V))) o3
    obtain ⟨half, hhalf⟩ := upd2_ok (b := p) (v := ([] : Dict String (LogkE V))) o4
    obtain ⟨n, hn⟩ := procNorm_ok hd hnum
    obtain ⟨w, hw⟩ := procSumw2_ok hvar
    obtain ⟨w2, hw2⟩ := upd2_ok (b := p) (v := w) o2
    rcases addProcess_out cfg h p chan sig vars s with ⟨_, ⟨e, he⟩ | he | ⟨nc', he, he'⟩⟩ | ⟨c', nc', hc', hn', _, he⟩
    · rw [checkHist_of (hget hc) ha] at he
      cases he
    · rw [hnc] at he
      cases he
    · rw [hnc] at he
      cases he
      rw [hno] at he'
      cases he'
    · rw [checkHist_of (hget hc) ha] at hc'
      cases hc'
      rw [hnc] at hn'
      cases hn'
      simp only [havg, hhalf, hn, hw, hw2] at he
      have e : step cfg (.process h p chan sig vars) s = _ := he
      rw [e]
      refine ⟨rfl, ⟨?_, ?_, ?_, ?_, ?_, fun c' q => ?_, ?_, ?_⟩, fun _ h => h.elim, ?_⟩
      · cases sig <;> exact T.chans
      · cases sig <;> exact T.data
      · cases sig <;> exact T.var
      · cases sig <;> exact T.pseudo
      · cases sig <;> exact T.names
      · show (∃ m, Spec.at2 (s.norm.set chan (nc.set p n)) c' q = some m) ↔ (c' = chan ∧ q = p) ∨ K.procs c' q
        rw [← T.procs]
        have hu : upd2 s.norm chan p n = .ok (s.norm.set chan (nc.set p n)) := by
          unfold upd2
          rw [hnc]
        rw [upd2_at hu]
        split
        · rename_i h
          exact ⟨fun _ => .inl h, fun _ => ⟨_, rfl⟩⟩
        · rename_i h
          exact ⟨.inr, fun h' => h'.resolve_left h⟩
      · cases sig with
        | true =>
          intro q
          show q ∈ setAdd s.signals p ↔ (true = true ∧ q = p) ∨ K.kind true q
          rw [mem_setAdd, T.signals]
          exact ⟨fun h => h.elim .inr fun h => .inl ⟨rfl, h⟩, fun h => h.elim (fun h => .inr h.2) .inl⟩
        | false =>
          intro q
          show q ∈ s.signals ↔ (true = false ∧ q = p) ∨ K.kind true q
          rw [T.signals]
          simp
      · cases sig with
        | false =>
          intro q
          show q ∈ setAdd s.bkgs p ↔ (false = false ∧ q = p) ∨ K.kind false q
          rw [mem_setAdd, T.bkgs]
          exact ⟨fun h => h.elim .inr fun h => .inl ⟨rfl, h⟩, fun h => h.elim (fun h => .inr h.2) .inl⟩
        | true =>
          intro q
          show q ∈ s.bkgs ↔ (false = true ∧ q = p) ∨ K.kind false q
          rw [T.bkgs]
          simp
      · exact hfit (P := fun c => Spec.fullSize c.flow c.axes h ∧ ∀ v, vars = some v → Spec.fullSize c.flow c.axes v) hc
          ⟨fullSize_of hp, fun v h => fullSize_of (hv v h)⟩
  | syst x name p chan k mirror symm toCov asDiff o =>
    refine ⟨syst_accepts ht hs T hz hal, T.of_core ((keeps_addSystematic ..).run s), fun _ h => h.elim, ?_⟩
    cases x with
    | single h =>
      obtain ⟨_, _, _, c, hc, _, hp, _⟩ := hal
      exact hfit (P := fun c => Spec.fullSize c.flow c.axes h) hc (fullSize_of hp)
    | pair u d =>
      obtain ⟨_, _, c, hc, ⟨_, hp, _⟩, _, hp', _⟩ := hal
      exact hfit (P := fun c => Spec.fullSize c.flow c.axes u ∧ Spec.fullSize c.flow c.axes d) hc ⟨fullSize_of hp, fullSize_of hp'⟩
  | normSyst name procs chan unc toCov symm o =>
    exact ⟨norm_accepts ht hs T hal, T.of_core ((keeps_addNormSystematic ..).run s), fun _ h => h.elim, trivial⟩
  | write iter => exact hal.elim

/-! ### Histories -/

theorem tracks_empty : Tracks Spec.Book.empty ({} : State V) :=
  ⟨fun _ => rfl, fun _ => ⟨fun h => (nomatch h), False.elim⟩, fun _ h => h.elim, fun _ _ => ⟨fun ⟨_, h⟩ => (nomatch h), False.elim⟩,
    fun _ => ⟨fun h => (nomatch h), fun ⟨_, h⟩ => h.elim⟩, fun _ _ => ⟨fun ⟨_, h⟩ => (nomatch h), False.elim⟩,
    fun _ => ⟨fun h => (nomatch h), False.elim⟩, fun _ => ⟨fun h => (nomatch h), False.elim⟩⟩

theorem history_ok {cfg : Cfg V} (hd : cfg.sparse = false) (ht : cfg.systType ≠ .other) (ops : List (Op V)) :
    ∀ (K : Spec.Book) (pre : List (Op V)), Tracks K (run cfg pre) → Sized (run cfg pre) → LayInv (run cfg pre) → Spec.wellFormed cfg K ops →
      Spec.allOk cfg (run cfg pre) ops ∧ Spec.freshNames cfg (run cfg pre) ops ∧ Spec.fitting cfg (run cfg pre) ops ∧
        Tracks (K.notes ops) (run cfg (pre ++ ops)) := by
  induction ops with
  | nil =>
    intro K pre T _ _ _
    rw [List.append_nil]
    exact ⟨trivial, trivial, trivial, T⟩
  | cons op ops ih =>
    intro K pre T hz hl hw
    obtain ⟨h1, h2, h3, h4⟩ := step_ok hd ht T (ready_run cfg pre) hz hl hw.1
    have e : run cfg (pre ++ [op]) = (step cfg op (run cfg pre)).1 := by
      unfold run
      rw [runOps_append]
      rfl
    have z1 := sized_step hd op _ hz hl h3 h4
    have z2 := layInv_step cfg op _ hl h3
    rw [← e] at h2 z1 z2
    obtain ⟨k1, k2, k3, k4⟩ := ih (K.note op) (pre ++ [op]) h2 z1 z2 hw.2
    rw [e] at k1 k2 k3
    rw [List.append_assoc] at k4
    exact ⟨⟨h1, k1⟩, ⟨h3, k2⟩, ⟨h4, k3⟩, k4⟩

theorem history_run {cfg : Cfg V} (hd : cfg.sparse = false) (ht : cfg.systType ≠ .other) {ops : List (Op V)}
    (hw : Spec.wellFormed cfg .empty ops) : Spec.allOk cfg {} ops ∧ Spec.freshNames cfg {} ops ∧ Spec.fitting cfg {} ops ∧
      Tracks (Spec.Book.notes .empty ops) (run cfg ops) :=
  history_ok hd ht ops .empty [] tracks_empty (sized_run hd [] trivial trivial) (layInv_run cfg [] trivial) hw

omit [IsStrictOrderedRing V] in
theorem covariance_nil (cfg : Cfg V) {ops : List (Op V)} (h : ∀ op ∈ ops, Spec.noCov op) : (run cfg ops).covariance = [] := by
  obtain ⟨bs, hb, h2, _⟩ := bkSpec_run cfg ops
  rw [List.eq_nil_iff_forall_not_mem]
  intro n hn
  obtain ⟨b, hbm, _, hc⟩ := (hb.covariance n).1 hn
  obtain ⟨⟨op, hop, hask⟩, _⟩ := h2 b hbm
  have hno := h op hop
  cases op with
  | syst x name p chan k mirror symm toCov asDiff o =>
    obtain rfl : toCov = false := hno
    cases x with
    | single h =>
      rw [Spec.asks, List.mem_singleton] at hask
      rw [hask] at hc
      cases hc
    | pair u d =>
      rw [Spec.asks] at hask
      split at hask
      · rcases List.mem_cons.1 hask with rfl | hask
        · cases hc
        · rw [List.mem_singleton] at hask
          rw [hask] at hc
          cases hc
      · rw [List.mem_singleton] at hask
        rw [hask] at hc
        cases hc
  | normSyst name procs chan unc toCov symm o =>
    obtain rfl : toCov = false := hno
    rw [Spec.asks, List.mem_singleton] at hask
    rw [hask] at hc
    cases hc
  | _ => exact absurd hask (List.not_mem_nil)

theorem dataCov_run {cfg : Cfg V} {K : Spec.Book} {ops : List (Op V)} (hw : Spec.wellFormed cfg K ops) (s : State V) :
    (runOps cfg s ops).dataCov = ops.foldl (fun c op => match op with
      | .dataCov cov => some cov
      | _ => c) s.dataCov := by
  induction ops generalizing s K with
  | nil => rfl
  | cons op ops ih =>
    have key : ∀ {m : M V Unit}, Keeps (fun s : State V => s.dataCov) m → (m s).1.dataCov = s.dataCov := fun hm => hm.run s
    have kc : ∀ {m : M V Unit}, Keeps core m → Keeps (fun s : State V => s.dataCov) m := fun hm =>
      keeps_of_core hm _ fun s t e => congrArg Core.dataCov e
    rw [runOps, ih hw.2, List.foldl_cons]
    congr 1
    cases op with
    | channel axes name m f => exact key (keeps_addChannel _ (fun _ _ _ _ _ _ _ => rfl) ..)
    | dataCov c => rfl
    | data h c vars => exact key (keeps_addData _ (fun _ _ _ => rfl) ..)
    | pseudo h name c => exact key (keeps_addPseudo _ (fun _ _ _ => rfl) ..)
    | process h name c sig vars => exact key (keeps_addProcess _ (fun _ _ _ _ _ _ _ => rfl) ..)
    | syst x name proc c k m sy t d o => exact key (kc (keeps_addSystematic ..))
    | normSyst name procs c u t sy o => exact key (kc (keeps_addNormSystematic ..))
    | write it => exact hw.1.elim

/-- C107: No call of a well-formed history is refused.  For all histories, numbers of channels, processes and bins, all settings of a writer of
dense tensors with a valid type of systematics. -/
theorem c107_accepted (cfg : Cfg V) (hd : cfg.sparse = false) (ht : cfg.systType ≠ .other) (ops : List (Op V))
    (hw : Spec.wellFormed cfg .empty ops) : Spec.allOk cfg {} ops := (history_run hd ht hw).1

/-- C107: A well-formed history that is complete and does not touch the data covariance gives a file, whatever the iteration order of the sets,
and the data covariance in it is the one that was given last, if any. -/
theorem c107_written (cfg : Cfg V) (hd : cfg.sparse = false) (ht : cfg.systType ≠ .other) (hb : cfg.addBBB = false) (ops : List (Op V))
    (hw : Spec.wellFormed cfg .empty ops) (hf : (Spec.Book.notes .empty ops).full) (hcov : ∀ op ∈ ops, Spec.noCov op)
    (iter : List String → List String) (hit : ∀ l, (iter l).Perm l) :
    ∃ t, (write cfg iter (run cfg ops)).2 = .ok t ∧ t.fullCov = Spec.givenCov ops := by
  obtain ⟨_, h2, h3, T⟩ := history_run hd ht hw
  have hnil := covariance_nil cfg hcov
  suffices h : ∃ t, (write cfg iter (run cfg ops)).2 = .ok t by
    obtain ⟨t, h⟩ := h
    refine ⟨t, h, ?_⟩
    obtain ⟨lay, cells, W⟩ := write_ok h
    obtain ⟨c, s', g1, g2, _⟩ := W.cov
    have hi : iter (run cfg ops).covariance = [] := by
      have := hit (run cfg ops).covariance
      rw [hnil] at this ⊢
      exact List.perm_nil.1 this
    unfold initCov at g1
    rw [hnil, hb] at g1
    simp only [List.isEmpty_nil, Bool.not_true, Bool.or_self, Bool.and_false, Bool.false_eq_true, if_false] at g1
    rw [hi, hb, cov_plain] at g2
    rw [← Except.ok.inj (congrArg Prod.snd g2), ← Except.ok.inj g1]
    exact dataCov_run hw {}
  refine c98_dense_partial cfg hd hb ops h2 h3 ⟨fun p h1 h2 => hf.kinds p ⟨(T.signals p).1 h1, (T.bkgs p).1 h2⟩, fun chan c hc hm => ?_,
    fun chan c hc hm n hn => ?_⟩ hnil iter hit
  · rw [T.chans] at hc
    have hdata := hf.data chan c hc hm
    obtain ⟨l, hl⟩ := (Dict.has_iff _ _).1 ((T.data chan).2 hdata)
    obtain ⟨l', hl'⟩ := (Dict.has_iff _ _).1 (T.var chan hdata)
    exact ⟨by rw [hl]; simp, by rw [hl']; simp⟩
  · rw [T.chans] at hc
    obtain ⟨chan', hp⟩ := (T.names n).1 hn
    obtain ⟨l, hl⟩ := (T.pseudo chan n).2 (hf.pseudo chan c hc hm chan' n hp)
    rw [hl]
    simp

/-- C107: What the writer refuses after a well-formed history: data, pseudo-data, templates and variations for channels that are not
registered, a second data histogram of a channel, a second template of a process, and variations of processes without template. -/
theorem c107_refused (cfg : Cfg V) (hd : cfg.sparse = false) (ht : cfg.systType ≠ .other) (ops : List (Op V))
    (hw : Spec.wellFormed cfg .empty ops) : let K := Spec.Book.notes .empty ops
    (∀ h chan vars, (step cfg (.data h chan vars) (run cfg ops)).2 = .ok () → ¬ K.data chan ∧ ∃ c, K.chans chan = some c) ∧
    (∀ h n chan, (step cfg (.pseudo h (some n) chan) (run cfg ops)).2 = .ok () → ¬ K.pseudo chan n ∧ ∃ c, K.chans chan = some c) ∧
    (∀ h p chan sig vars, (step cfg (.process h p chan sig vars) (run cfg ops)).2 = .ok () → ¬ K.procs chan p ∧ ∃ c, K.chans chan = some c) ∧
    ∀ x name p chan k mirror symm toCov asDiff o, (step cfg (.syst x name p chan k mirror symm toCov asDiff o) (run cfg ops)).2 = .ok () →
      K.procs chan p ∧ ∃ c, K.chans chan = some c := by
  intro K
  obtain ⟨_, _, _, T⟩ := history_run hd ht hw
  have T' : Tracks K (run cfg ops) := T
  generalize run cfg ops = s at T'
  refine ⟨fun h chan vars hok => ?_, fun h n chan hok => ?_, fun h p chan sig vars hok => ?_, fun x name p chan k mirror symm toCov asDiff o hok => ?_⟩
  · rcases addData_cases cfg h chan vars s with ⟨e, _, he⟩ | ⟨_, _, he⟩ | ⟨⟨c, hc⟩, hno, _⟩
    · rw [show step cfg (.data h chan vars) s = _ from he] at hok
      cases hok
    · rw [show step cfg (.data h chan vars) s = _ from he] at hok
      cases hok
    · refine ⟨fun h => ?_, c, by rw [← T'.chans]; exact checkHist_ok hc⟩
      rw [(T'.data chan).2 h] at hno
      cases hno
  · have hc : ∃ c, checkHist cfg s.channels h chan = .ok c := by
      cases hx : checkHist cfg s.channels h chan with
      | ok c => exact ⟨c, rfl⟩
      | error e =>
        simp only [step, addPseudo] at hok
        rw [read_bind, hx] at hok
        cases hok
    obtain ⟨c, hc⟩ := hc
    refine ⟨fun hp => ?_, c, by rw [← T'.chans]; exact checkHist_ok hc⟩
    obtain ⟨l, hl⟩ := (T'.pseudo chan n).2 hp
    obtain ⟨i, hi, hin⟩ := at2_get hl
    rcases addPseudo_out cfg h (some n) chan s with ⟨e, he⟩ | ⟨nm, pc, hnm, rfl, ⟨_, he⟩ | ⟨hno, _⟩⟩
    · rw [show step cfg (.pseudo h (some n) chan) s = _ from he] at hok
      cases hok
    · rw [show step cfg (.pseudo h (some n) chan) s = _ from he] at hok
      cases hok
    · obtain rfl : nm = n := hnm
      rw [hi, Option.getD_some, Dict.has_eq_false_iff] at hno
      rw [hno] at hin
      cases hin
  · rcases addProcess_out cfg h p chan sig vars s with ⟨⟨e, he⟩, _⟩ | ⟨c, nc, hc, hnc, hno, _⟩
    · rw [show step cfg (.process h p chan sig vars) s = _ from he] at hok
      cases hok
    · refine ⟨fun hp => ?_, c, by rw [← T'.chans]; exact checkHist_ok hc⟩
      obtain ⟨n, hn⟩ := (T'.procs chan p).2 hp
      obtain ⟨i, hi, hin⟩ := at2_get hn
      rw [hnc] at hi
      cases hi
      rw [(Dict.has_eq_false_iff _ _).1 hno] at hin
      cases hin
  · have h : addSystematic cfg x name p chan k mirror symm toCov asDiff o s =
        ((step cfg (.syst x name p chan k mirror symm toCov asDiff o) s).1, .ok ()) := Prod.ext rfl hok
    unfold addSystematic at h
    rw [read_bind] at h
    obtain ⟨nc, hnc, h⟩ := lift_bind_ok h
    obtain ⟨n, hn, h⟩ := lift_bind_ok h
    obtain ⟨c, hc, _⟩ := lift_bind_ok h
    refine ⟨(T'.procs chan p).1 ⟨n, get_at2 hnc hn⟩, c, ?_⟩
    rw [← T'.chans]
    unfold Dict.get at hc
    split at hc
    · rename_i v hv; cases hc; exact hv
    · cases hc

/-! ### Example -/

namespace Ex

/-- two processes, one of them with a template in a masked channel; pseudo-data; all kinds of variations -/
def acceptOps : List (Op ℚ) := [.channel [ax 2] (some "a") false false, .process (h [1, 2]) "p" "a" true none,
  .channel [ax 3] (some "m") true true, .data (h [2, 3]) "a" none, .process (h [3, 1]) "q" "a" false (some (h [2, 2])),
  .process (h [1, 0, 5]) "p" "m" true none, .pseudo (h [4, 4]) (some "toy") "a",
  .syst (.pair (h [2, 3]) (h [1, 1])) "n" "p" "a" 1 true .quadratic false false {},
  .syst (.pair (h [1, 0, 6]) (h [1, 0, 4])) "n" "p" "m" 1 true .none false false { constrained := false },
  .syst (.single (h [3, 2])) "k" "q" "a" 2 true .average false true { noi := true },
  .normSyst "r" ["p", "q"] "a" [.num 2, .list [2, 1]] false .conservative {}]

theorem agrees_h (l : List ℚ) (m f : Bool) (n : Nat) (hn : n = l.length) : Spec.agrees cfg ⟨[ax n], m, f⟩ (h l) := by
  subst hn
  exact .cons (by simp [cfg]) .nil

theorem perBin_h (l : List ℚ) (m f flow : Bool) (n : Nat) (hn : n = l.length) : Spec.perBin ⟨[ax n], m, f⟩ flow (h l) := by
  subst hn
  have e : prod (dims flow [ax l.length]) = l.length := by cases flow <;> simp [prod, dims, ax, Axis.extent, Axis.off]
  exact ⟨by rw [e]; exact List.length_map _, by rw [e]; exact List.length_map _⟩

theorem numbers_h (l : List ℚ) (flow : Bool) : Spec.numbers ((h l).flatVals flow) := fun x hx => by
  obtain ⟨v, _, rfl⟩ := List.mem_map.1 (show x ∈ l.map FVal.fin from hx)
  exact ⟨v, rfl⟩

theorem variances_h (l : List ℚ) (flow : Bool) (h0 : ∀ v ∈ l, 0 ≤ v) : Spec.variances (Spec.ownVars flow (h l)) := fun x hx => by
  obtain ⟨v, hv, rfl⟩ := List.mem_map.1 (show x ∈ l.map FVal.fin from hx)
  exact ⟨v, rfl, h0 v hv⟩

theorem accept_wellFormed : Spec.wellFormed cfg .empty acceptOps := by
  refine ⟨⟨⟨"a", rfl, rfl⟩, by simp⟩, ⟨by simp [Spec.Book.note, Spec.Book.empty], ⟨[ax 2], false, false⟩, rfl, agrees_h _ _ _ _ rfl,
      perBin_h _ _ _ _ _ rfl, numbers_h _ _, by simp, variances_h _ _ (by simp)⟩,
    ⟨⟨"m", rfl, by simp [Spec.Book.note, Spec.Book.empty]⟩, by simp⟩,
    ⟨by simp [Spec.Book.note, Spec.Book.empty], ⟨[ax 2], false, false⟩, by simp [Spec.Book.note], agrees_h _ _ _ _ rfl,
      perBin_h _ _ _ _ _ rfl, by simp, variances_h _ _ (by simp)⟩,
    ⟨by simp [Spec.Book.note, Spec.Book.empty], ⟨[ax 2], false, false⟩, by simp [Spec.Book.note], agrees_h _ _ _ _ rfl,
      perBin_h _ _ _ _ _ rfl, numbers_h _ _, fun v hv => Option.some.inj hv ▸ perBin_h _ _ _ _ _ rfl, variances_h _ _ (by simp)⟩,
    ⟨by simp [Spec.Book.note, Spec.Book.empty], ⟨[ax 3], true, true⟩, by simp [Spec.Book.note], agrees_h _ _ _ _ rfl,
      perBin_h _ _ _ _ _ rfl, numbers_h _ _, by simp, variances_h _ _ (by simp)⟩,
    ⟨⟨[ax 2], false, false⟩, by simp [Spec.Book.note], agrees_h _ _ _ _ rfl, perBin_h _ _ _ _ _ rfl, "toy", rfl,
      by simp [Spec.Book.note, Spec.Book.empty]⟩,
    ⟨by simp [Spec.Book.note], by simp, ⟨[ax 2], false, false⟩, by simp [Spec.Book.note],
      ⟨agrees_h _ _ _ _ rfl, perBin_h _ _ _ _ _ rfl, numbers_h _ _⟩, agrees_h _ _ _ _ rfl, perBin_h _ _ _ _ _ rfl, numbers_h _ _⟩,
    ⟨by simp [Spec.Book.note], by simp, ⟨[ax 3], true, true⟩, by simp [Spec.Book.note],
      ⟨agrees_h _ _ _ _ rfl, perBin_h _ _ _ _ _ rfl, numbers_h _ _⟩, agrees_h _ _ _ _ rfl, perBin_h _ _ _ _ _ rfl, numbers_h _ _⟩,
    ⟨by simp [Spec.Book.note], by simp, rfl, ⟨[ax 2], false, false⟩, by simp [Spec.Book.note], agrees_h _ _ _ _ rfl,
      perBin_h _ _ _ _ _ rfl, numbers_h _ _⟩,
    ⟨by simp [Spec.Book.note], by simp, by simp, ?_⟩, trivial⟩
  intro u hu
  simp only [List.mem_cons, List.not_mem_nil, or_false] at hu
  rcases hu with rfl | rfl
  · exact .inl ⟨_, rfl⟩
  · exact .inr ⟨⟨_, _, rfl⟩, .inr rfl⟩

theorem accept_full : (Spec.Book.notes .empty acceptOps).full := by
  refine ⟨fun p => ?_, fun chan c hc hm => ?_, fun chan c hc hm => ?_⟩
  · simp [Spec.Book.notes, acceptOps, Spec.Book.note, Spec.Book.empty]
    rintro rfl
    decide
  · simp only [Spec.Book.notes, acceptOps, Spec.Book.note, Spec.Book.empty, List.foldl_cons, List.foldl_nil] at hc ⊢
    split at hc
    · cases hc
      cases hm
    · split at hc
      · rename_i h
        exact .inl (Option.some.inj h).symm
      · cases hc
  · intro chan' n hp
    simp only [Spec.Book.notes, acceptOps, Spec.Book.note, Spec.Book.empty, List.foldl_cons, List.foldl_nil] at hc hp ⊢
    split at hc
    · cases hc
      cases hm
    · split at hc
      · rename_i h
        exact .inl ⟨(Option.some.inj h).symm, hp.elim And.right False.elim⟩
      · cases hc

end Ex

/-- a history with masked channel, pseudo-data and all kinds of variations is accepted and written -/
example : Spec.allOk Ex.cfg {} Ex.acceptOps ∧ ∃ t, (write Ex.cfg id (run Ex.cfg Ex.acceptOps)).2 = .ok t ∧ t.fullCov.isNone = true := by
  refine ⟨c107_accepted Ex.cfg rfl (by decide) _ Ex.accept_wellFormed, ?_⟩
  obtain ⟨t, h1, h2⟩ := c107_written Ex.cfg rfl (by decide) rfl _ Ex.accept_wellFormed Ex.accept_full (by
    simp [Ex.acceptOps, Spec.noCov]) id (fun _ => .refl _)
  exact ⟨t, h1, by rw [h2]; rfl⟩

/-- and a second data histogram is refused -/
example : (step Ex.cfg (.data (Ex.h [2, 3]) "a" none) (run Ex.cfg Ex.acceptOps)).2 ≠ .ok () := fun h =>
  ((c107_refused Ex.cfg rfl (by decide) _ Ex.accept_wellFormed).1 _ _ _ h).1 (by
    simp [Spec.Book.notes, Ex.acceptOps, Spec.Book.note])

end Verif.Writer
