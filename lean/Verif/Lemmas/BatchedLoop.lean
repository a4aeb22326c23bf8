import Verif.Lemmas.BatchedVar

/-! The loop over slices and the batched path book the same entries. -/

namespace Verif.Batched

set_option linter.unusedSectionVars false

open Verif.Logk Verif.Writer Verif.Writer.M Verif.Grid

section
variable {α : Type}

/-- dictionaries with the same keys in the same order and related values -/
def Rel {α β : Type} (R : α → β → Prop) : Dict String α → Dict String β → Prop :=
  List.Forall₂ fun a b => a.1 = b.1 ∧ R a.2 b.2

theorem Rel.refl {R : α → α → Prop} (hR : ∀ a, R a a) (d : Dict String α) : Rel R d d := by
  unfold Rel
  rw [List.forall₂_same]
  exact fun a _ => ⟨rfl, hR _⟩

theorem Rel.get {R : α → α → Prop} {d d' : Dict String α} (h : Rel R d d') (k : String) :
    Option.Rel R (d.get? k) (d'.get? k) := by
  unfold Rel at h
  induction h with
  | nil => exact .none
  | cons h1 _ ih =>
    rename_i a b l l' _
    obtain ⟨a1, a2⟩ := a
    obtain ⟨b1, b2⟩ := b
    obtain ⟨rfl, h1⟩ := h1
    unfold Dict.get?
    split
    · exact .some h1
    · exact ih

theorem Rel.set {R : α → α → Prop} {d d' : Dict String α} (h : Rel R d d') (k : String) {v v' : α} (hv : R v v') :
    Rel R (d.set k v) (d'.set k v') := by
  unfold Rel at h ⊢
  induction h with
  | nil => exact .cons ⟨rfl, hv⟩ .nil
  | cons h1 h2 ih =>
    rename_i a b l l'
    obtain ⟨a1, a2⟩ := a
    obtain ⟨b1, b2⟩ := b
    obtain ⟨rfl, h1⟩ := h1
    unfold Dict.set
    split
    · exact .cons ⟨rfl, hv⟩ h2
    · exact .cons ⟨rfl, h1⟩ ih

theorem upd2_rel {R : α → α → Prop} {d d' : Dict String (Dict String α)} (h : Rel (Rel R) d d') {a b : String} {v v' : α}
    (hv : R v v') {r : Dict String (Dict String α)} (hr : upd2 d a b v = .ok r) :
    ∃ r', upd2 d' a b v' = .ok r' ∧ Rel (Rel R) r r' := by
  unfold upd2 at hr ⊢
  have hg := h.get a
  cases h1 : d.get? a with
  | none => rw [h1] at hr; cases hr
  | some i =>
    rw [h1] at hr hg
    cases hr
    cases h2 : d'.get? a with
    | none => rw [h2] at hg; cases hg
    | some i' =>
      rw [h2] at hg
      cases hg with
      | some hi => exact ⟨_, rfl, h.set a (hi.set b hv)⟩

theorem upd3_rel {R : α → α → Prop} {d d' : Dict String (Dict String (Dict String α))} (h : Rel (Rel (Rel R)) d d')
    {a b c : String} {v v' : α} (hv : R v v') {r : Dict String (Dict String (Dict String α))}
    (hr : upd3 d a b c v = .ok r) : ∃ r', upd3 d' a b c v' = .ok r' ∧ Rel (Rel (Rel R)) r r' := by
  unfold upd3 at hr ⊢
  have hg := h.get a
  cases h1 : d.get? a with
  | none => rw [h1] at hr; cases hr
  | some i =>
    rw [h1] at hr hg
    cases h2 : d'.get? a with
    | none => rw [h2] at hg; cases hg
    | some i' =>
      rw [h2] at hg
      cases hg with
      | some hi =>
        dsimp only at hr ⊢
        cases h3 : upd2 i b c v with
        | error => rw [h3] at hr; cases hr
        | ok j =>
          rw [h3] at hr
          cases hr
          obtain ⟨j', h4, h5⟩ := upd2_rel hi hv h3
          rw [h4]
          exact ⟨_, rfl, h.set a h5⟩

end

section
variable {V : Type} [Field V] [LinearOrder V]

/-- two writers that differ at most in the order of the entries of stored sparse variations -/
def Spec.sameState (s s' : State V) : Prop :=
  ∃ d, s' = { s with logkavg := d } ∧ Rel (Rel (Rel Spec.same)) s.logkavg d

theorem sameState_refl (s : State V) : Spec.sameState s s :=
  ⟨s.logkavg, rfl, Rel.refl (fun _ => Rel.refl (fun _ => Rel.refl same_refl _) _) _⟩

/-- `book_systematic` without covariance never fails -/
def bookState (name : String) (o : SystOpts) (s : State V) : State V :=
  { s with
    noConstraint := if !o.constrained then setAdd s.noConstraint name else s.noConstraint
    standard := if !o.constrained then s.standard else setAdd s.standard name
    noi := if o.noi then setAdd s.noi name else s.noi
    groups := (o.groups.getD [name]).foldl (fun gs g => addToGroup gs g name) s.groups }

theorem bookSystematic_eq (name : String) (o : SystOpts) (s : State V) :
    bookSystematic name false o s = (bookState name o s, .ok ()) := by
  obtain ⟨noi, constrained, groups⟩ := o
  cases noi <;> cases constrained <;> rfl

theorem insertOne_ok {proc chan name : String} {e : LogkE V} {o : SystOpts} {s s' : State V} :
    insertOne proc chan name e o s = (s', .ok ()) ↔
      ∃ d, upd3 s.logkavg chan proc name e = .ok d ∧ s' = bookState name o { s with logkavg := d } := by
  unfold insertOne
  rw [read_bind]
  cases h : upd3 s.logkavg chan proc name e with
  | error x =>
    rw [lift_error_bind]
    constructor
    · intro h; cases h
    · rintro ⟨d, hd, _⟩; cases hd
  | ok d =>
    have : (lift (Except.ok d) >>= fun d => do
        M.modify fun s => { s with logkavg := d }
        bookSystematic name false o) s = bookSystematic name false o { s with logkavg := d } := rfl
    rw [this, bookSystematic_eq]
    constructor
    · intro h; cases h; exact ⟨d, rfl, rfl⟩
    · rintro ⟨d', hd, rfl⟩; cases hd; rfl

theorem insertOne_rel {proc chan name : String} {e e' : LogkE V} {o : SystOpts} {s s' t : State V}
    (hst : Spec.sameState s t) (he : Spec.same e e') (h : insertOne proc chan name e o s = (s', .ok ())) :
    ∃ t', insertOne proc chan name e' o t = (t', .ok ()) ∧ Spec.sameState s' t' := by
  obtain ⟨d, hd, rfl⟩ := insertOne_ok.1 h
  obtain ⟨d0, rfl, hrel⟩ := hst
  obtain ⟨d', hd', hrel'⟩ := upd3_rel hrel he hd
  exact ⟨_, insertOne_ok.2 ⟨d', hd', rfl⟩, d', rfl, hrel'⟩

theorem forEach_cons_ok {β : Type} {body : β → M V Unit} {x : β} {l : List β} {s s1 : State V}
    (h : body x s = (s1, .ok ())) : forEach body (x :: l) s = forEach body l s1 := by
  show M.bind (body x) (fun _ => forEach body l) s = _
  unfold M.bind
  rw [h]

theorem insertAll_rel {proc chan : String} {o : SystOpts} {es es' : List (String × LogkE V)}
    (hes : List.Forall₂ (fun a b => a.1 = b.1 ∧ Spec.same a.2 b.2) es es') : ∀ {s s' t : State V}, Spec.sameState s t →
    forEach (fun e : String × LogkE V => insertOne proc chan e.1 e.2 o) es s = (s', .ok ()) →
    ∃ t', forEach (fun e : String × LogkE V => insertOne proc chan e.1 e.2 o) es' t = (t', .ok ()) ∧
      Spec.sameState s' t' := by
  induction hes with
  | nil => intro s s' t hst h; cases h; exact ⟨t, rfl, hst⟩
  | cons h1 _ ih =>
    rename_i a b l l' _
    obtain ⟨a1, a2⟩ := a
    obtain ⟨b1, b2⟩ := b
    obtain ⟨rfl, h1⟩ := h1
    intro s s' t hst h
    obtain ⟨s1, u, h2, h3⟩ := bind_ok (m := insertOne proc chan a1 a2 o)
      (f := fun _ => forEach (fun e : String × LogkE V => insertOne proc chan e.1 e.2 o) l) h
    obtain ⟨t1, h4, h5⟩ := insertOne_rel hst h1 h2
    obtain ⟨t', h6, h7⟩ := ih h5 h3
    refine ⟨t', ?_, h7⟩
    exact (forEach_cons_ok (body := fun e : String × LogkE V => insertOne proc chan e.1 e.2 o) (x := (a1, b2)) h4).trans h6

/-! ### One slice -/

theorem addSystematic_single {cfg : Cfg V} {h : HIn V} {name proc chan : String} {kfac : V} {symm : Symm} {o : SystOpts}
    {s s' : State V} {norm : Norm V} {c : Chan} (hn : Spec.at2 s.norm chan proc = some norm)
    (hc : s.channels.get? chan = some c)
    (hs : addSystematic cfg (.single h) name proc chan kfac true symm false true o s = (s', .ok ())) :
    ∃ sv sv' lk e, systVals h norm c.flow = .ok sv ∧ applyDiff true norm.vals sv = .ok sv' ∧
      logkVals cfg.num cfg.systType kfac sv' norm.vals = .ok lk ∧ bookedLogk cfg norm (wrap norm.idx lk) = .ok e ∧
      insertOne proc chan name e o s = (s', .ok ()) := by
  obtain ⟨nc, hnc, hnp⟩ := Option.bind_eq_some_iff.1 (show (s.norm.get? chan).bind (·.get? proc) = some norm from hn)
  have g1 : s.norm.get chan = .ok nc := by unfold Dict.get; rw [hnc]
  have g2 : nc.get proc = .ok norm := by unfold Dict.get; rw [hnp]
  have g3 : s.channels.get chan = .ok c := by unfold Dict.get; rw [hc]
  unfold addSystematic at hs
  rw [read_bind, g1] at hs
  obtain ⟨nc', hx, hs⟩ := lift_bind_ok hs
  cases hx
  rw [g2] at hs
  obtain ⟨n', hx, hs⟩ := lift_bind_ok hs
  cases hx
  rw [g3] at hs
  obtain ⟨c', hx, hs⟩ := lift_bind_ok hs
  cases hx
  dsimp only at hs
  obtain ⟨_, hs⟩ := Merge.raiseIf_ok hs
  obtain ⟨_, _, hs⟩ := lift_bind_ok hs
  obtain ⟨sv, h1, hs⟩ := lift_bind_ok hs
  obtain ⟨sv', h2, hs⟩ := lift_bind_ok hs
  obtain ⟨lk, h3, hs⟩ := lift_bind_ok hs
  obtain ⟨s1, u, h4, hs⟩ := bind_ok hs
  unfold bookLogk at h4
  rw [read_bind] at h4
  obtain ⟨p', hp, h4⟩ := lift_bind_ok h4
  cases hp
  rw [g1] at h4
  obtain ⟨nc', hx, h4⟩ := lift_bind_ok h4
  cases hx
  rw [g2] at h4
  obtain ⟨n', hx, h4⟩ := lift_bind_ok h4
  cases hx
  obtain ⟨e, he, h4⟩ := lift_bind_ok h4
  simp only [Bool.false_eq_true, if_false] at h4
  obtain ⟨d, hd, h4⟩ := lift_bind_ok h4
  cases h4
  refine ⟨sv, sv', lk, e, h1, h2, h3, he, insertOne_ok.2 ⟨d, hd, ?_⟩⟩
  rw [bookSystematic_eq] at hs
  cases hs; rfl

/-- what the loop over slices stores -/
theorem loop_entries [IsStrictOrderedRing V] {cfg : Cfg V} (ht : cfg.systType ≠ .other) {kfac : V} {norm : Norm V}
    {c : Chan} {proc chan : String} {symm : Symm} {o : SystOpts} {keep : List Axis}
    (hn : Spec.sized (Writer.prod (dims c.flow keep)) norm) (hsp : ∀ sz l, norm = .csr sz l → cfg.sparse = true)
    {P : List (Nat × Nat × FVal V)} (hP : (P.map fun e => (e.1, e.2.1)).Nodup)
    (hb : ∀ e ∈ P, e.2.1 < Writer.prod (dims c.flow keep)) {F : Nat → List (Nat × FVal V)}
    (hC : ∀ s, ((HIn.sparseHist keep (F s)).flatCsr c.flow).2.Perm ((P.filter fun e => e.1 = s).map (·.2)))
    (nm : Nat → String) {body : String × SystIn V → M V Unit}
    (hbody : ∀ nm F s, s.channels.get? chan = some c → body (nm, .single (.sparseHist keep F)) s =
      addSystematic cfg (.single (.sparseHist keep F)) nm proc chan kfac true symm false true o s) :
    ∀ {L : List Nat} {s s' : State V}, Spec.at2 s.norm chan proc = some norm → s.channels.get? chan = some c →
      forEach body (L.map fun i => (nm i, .single (.sparseHist keep (F i)))) s = (s', .ok ()) →
      (∀ i ∈ L, ∀ b x, (i, b, x) ∈ P → Spec.normAt norm b ≠ 0 → ∃ u, x = .fin u) ∧
      ∃ es : List (String × LogkE V), List.Forall₂ (fun i x => x.1 = nm i ∧
        Spec.holds cfg.sparse (Writer.prod (dims c.flow keep))
          (fun b => Spec.logk cfg.num cfg.systType kfac (Spec.normAt norm b) (diffAt P i b)) x.2) L es ∧
        forEach (fun e : String × LogkE V => insertOne proc chan e.1 e.2 o) es s = (s', .ok ())
  | [], s, s', _, _, h => by
    cases h
    exact ⟨by simp, [], .nil, rfl⟩
  | i :: L, s, s', hsn, hsc, h => by
    obtain ⟨s1, u, h1, h2⟩ := bind_ok (m := body (nm i, .single (.sparseHist keep (F i)))) (f := fun _ => forEach body
      (L.map fun i => (nm i, .single (.sparseHist keep (F i))))) h
    rw [hbody _ _ _ hsc] at h1
    obtain ⟨sv, sv', lk, e, g1, g2, g3, g4, g5⟩ := addSystematic_single hsn hsc h1
    obtain ⟨he, hf⟩ := loop_entry ht hn hsp rfl hP hb (hC i) g1 g2 g3 g4
    have hs1 : Spec.at2 s1.norm chan proc = some norm ∧ s1.channels.get? chan = some c := by
      obtain ⟨d, _, rfl⟩ := insertOne_ok.1 g5
      exact ⟨hsn, hsc⟩
    obtain ⟨hfin, es, hes, hrun⟩ := loop_entries ht hn hsp hP hb hC nm hbody hs1.1 hs1.2 h2
    refine ⟨fun j hj => ?_, (nm i, e) :: es, .cons ⟨rfl, he⟩ hes, ?_⟩
    · rcases List.mem_cons.1 hj with rfl | hj
      · exact hf
      · exact hfin j hj
    · exact (forEach_cons_ok (body := fun e : String × LogkE V => insertOne proc chan e.1 e.2 o) (x := (nm i, e)) g5).trans hrun

/-! ### The batched path -/

theorem batchEntries_eq {cfg : Cfg V} {sort : List (Nat × Nat × V) → List (Nat × Nat × V)} (hsort : ∀ l, (sort l).Perm l)
    (ht : cfg.systType ≠ .other) {c : Chan} {axes : List Axis} {extra : List String}
    (hch : (c.axes.map fun a => (axes.map (·.name)).idxOf a.name) = kept axes extra) {flat : List (Nat × FVal V)}
    {norm : Norm V} {kfac : V} (hn : Spec.sized (Writer.prod (dims c.flow (keptAxes axes extra))) norm)
    (hb : ∀ e ∈ placed c.flow axes extra flat, e.2.1 < Writer.prod (dims c.flow (keptAxes axes extra))) :
    batchEntries cfg sort c norm kfac axes flat extra =
      match (((placed c.flow axes extra flat).filter fun e => Spec.normAt norm e.2.1 ≠ 0).map
        fun e => (e.1, e.2.1, e.2.2, Spec.normAt norm e.2.1)).mapM
          fun e => (e.2.2.1.toFin?).map fun v => (e.1, e.2.1, v, e.2.2.2) with
      | none => .error .runtime
      | some l => .ok (sort ((l.map fun e =>
          (e.1, e.2.1, logkVal cfg.num cfg.systType kfac (e.2.2.2 + e.2.2.1) e.2.2.2)).filter fun e => e.2.2 ≠ 0)) := by
  unfold batchEntries
  dsimp only
  rw [hch]
  split
  · rename_i hf
    have : flat = [] := by simpa using hf
    subst this
    have hs : sort [] = [] := List.perm_nil.1 (hsort [])
    show Except.ok [] = Except.ok (sort [])
    rw [hs]
  · have hp : (List.map (fun e : MEntry V => (Writer.ravel (((extra.map (pos axes)).map (axisAt axes)).map (·.size))
          (regular axes (extra.map (pos axes)) e),
        (if c.flow then Writer.ravel (dims true ((kept axes extra).map (axisAt axes))) ((kept axes extra).map fun p => e.idx.getD p 0)
          else Writer.ravel (dims false ((kept axes extra).map (axisAt axes))) (regular axes (kept axes extra) e)), e.val))
        ((entries axes flat).filter (valid axes (if c.flow then extra.map (pos axes) else extra.map (pos axes) ++ kept axes extra)))) =
        placed c.flow axes extra flat := by
      unfold placed
      refine List.map_congr_left fun e _ => ?_
      unfold placeOf extraSizes keptAxes
      rw [List.map_map (f := axisAt axes)]
      rfl
    rw [hp, withNorm_eq hn hb]
    dsimp only [bind, Except.bind]
    split <;> split <;> simp_all

theorem batched_lists [IsStrictOrderedRing V] {cfg : Cfg V} (hN : cfg.num.log 1 = 0)
    {sort : List (Nat × Nat × V) → List (Nat × Nat × V)} (hsort : ∀ l, (sort l).Perm l)
    (hsorted : ∀ l, (sort l).Pairwise fun a b => a.1 ≤ b.1)
    (ht : cfg.systType ≠ .other) {c : Chan} {axes : List Axis} {extra : List String}
    (hch : (c.axes.map fun a => (axes.map (·.name)).idxOf a.name) = kept axes extra) {flat : List (Nat × FVal V)}
    {norm : Norm V} {kfac : V} (hn : Spec.sized (Writer.prod (dims c.flow (keptAxes axes extra))) norm)
    (hP : ((placed c.flow axes extra flat).map fun e => (e.1, e.2.1)).Nodup)
    (hb : ∀ e ∈ placed c.flow axes extra flat, e.2.1 < Writer.prod (dims c.flow (keptAxes axes extra)))
    {l : List (Nat × Nat × V)} (h : batchEntries cfg sort c norm kfac axes flat extra = .ok l) (s : Nat) :
    Lists (Writer.prod (dims c.flow (keptAxes axes extra)))
      (fun b => Spec.logk cfg.num cfg.systType kfac (Spec.normAt norm b) (diffAt (placed c.flow axes extra flat) s b))
      ((run l s).map (·.2)) := by
  rw [batchEntries_eq hsort ht hch hn hb] at h
  split at h
  · cases h
  · rename_i l' hl'
    simp only [Except.ok.injEq] at h
    have hL := batch_lists hN ht (kfac := kfac) hP hb hl' s
    generalize hL0 : ((l'.map fun e => (e.1, e.2.1, logkVal cfg.num cfg.systType kfac (e.2.2.2 + e.2.2.1) e.2.2.2)).filter
      fun e => e.2.2 ≠ 0) = L0 at h hL
    have hs := hsorted L0
    have hp := hsort L0
    rw [h] at hs hp
    rw [run_eq _ hs]
    exact hL.perm ((hp.filter _).map _)

theorem batched_succeeds {cfg : Cfg V}
    {sort : List (Nat × Nat × V) → List (Nat × Nat × V)} (hsort : ∀ l, (sort l).Perm l)
    (ht : cfg.systType ≠ .other) {c : Chan} {axes : List Axis} {extra : List String}
    (hch : (c.axes.map fun a => (axes.map (·.name)).idxOf a.name) = kept axes extra) {flat : List (Nat × FVal V)}
    {norm : Norm V} {kfac : V} (hn : Spec.sized (Writer.prod (dims c.flow (keptAxes axes extra))) norm)
    (hb : ∀ e ∈ placed c.flow axes extra flat, e.2.1 < Writer.prod (dims c.flow (keptAxes axes extra)))
    (hfin : ∀ s b x, (s, b, x) ∈ placed c.flow axes extra flat → Spec.normAt norm b ≠ 0 → ∃ u, x = .fin u) :
    ∃ l, batchEntries cfg sort c norm kfac axes flat extra = .ok l := by
  rw [batchEntries_eq hsort ht hch hn hb]
  rw [mapM_some (g := fun e : Nat × Nat × FVal V × V => (e.1, e.2.1, e.2.2.1.toFin?.getD 0, e.2.2.2))]
  · exact ⟨_, rfl⟩
  · intro e he
    obtain ⟨⟨s, b, x⟩, hx, rfl⟩ := List.mem_map.1 he
    have := List.mem_filter.1 hx
    obtain ⟨u, rfl⟩ := hfin s b x this.1 (by simpa using this.2)
    rfl

theorem idx_kept {axes : List Axis} {extra : List String} (hnamed : Named axes extra) {l : List Axis}
    (hch : l.map (·.name) = (axes.filter fun a => a.name ∉ extra.map some).map (·.name)) :
    (l.map fun a => (axes.map (·.name)).idxOf a.name) = kept axes extra := by
  have h1 : (l.map fun a => (axes.map (·.name)).idxOf a.name) =
      (l.map (·.name)).map fun n => (axes.map (·.name)).idxOf n := by
    rw [List.map_map]; rfl
  rw [h1, hch, List.map_map]
  exact keepPos_eq hnamed

/-- the batched path once the lookups succeed -/
theorem addBatched_eq {cfg : Cfg V} {sort : List (Nat × Nat × V) → List (Nat × Nat × V)} {axes : List Axis}
    {flat : List (Nat × FVal V)} {name proc chan : String} {kfac : V} {extra : List String} {o : SystOpts} {s : State V}
    {c : Chan} {norm : Norm V} (hnamed : Named axes extra) (hsc : s.channels.get? chan = some c)
    (hsn : Spec.at2 s.norm chan proc = some norm) (hsl : (Spec.at2 s.logkavg chan proc).isSome)
    (hch : c.axes.map (·.name) = (axes.filter fun a => a.name ∉ extra.map some).map (·.name))
    {l : List (Nat × Nat × V)} (hl : batchEntries cfg sort c norm kfac axes flat extra = .ok l) :
    addBatched cfg sort axes flat name proc chan kfac extra o s =
      forEach (fun e : String × LogkE V => insertOne proc chan e.1 e.2 o)
        ((List.range (Writer.prod (extraSizes axes extra))).map fun i =>
          (subName name (extra.map fun n => axisAt axes (pos axes n)) i,
            stored cfg.sparse (Writer.prod (dims c.flow (keptAxes axes extra))) ((run l i).map (·.2)))) s := by
  obtain ⟨nc, hnc, hnp⟩ := Option.bind_eq_some_iff.1 (show (s.norm.get? chan).bind (·.get? proc) = some norm from hsn)
  obtain ⟨la, hla⟩ := Option.isSome_iff_exists.1 hsl
  obtain ⟨ac, hac, hap⟩ := Option.bind_eq_some_iff.1 (show (s.logkavg.get? chan).bind (·.get? proc) = some la from hla)
  have g1 : s.norm.get chan = .ok nc := by unfold Dict.get; rw [hnc]
  have g2 : nc.get proc = .ok norm := by unfold Dict.get; rw [hnp]
  have g3 : s.channels.get chan = .ok c := by unfold Dict.get; rw [hsc]
  have g4 : s.logkavg.get chan = .ok ac := by unfold Dict.get; rw [hac]
  have g5 : ac.get proc = .ok la := by unfold Dict.get; rw [hap]
  have hname : ∀ a ∈ c.axes, a.name.isSome ∧ a.name ∈ axes.map (·.name) := by
    intro a ha
    have : a.name ∈ c.axes.map (·.name) := List.mem_map.2 ⟨a, ha, rfl⟩
    rw [hch] at this
    obtain ⟨x, hx, e⟩ := List.mem_map.1 this
    have hx' := (List.mem_filter.1 hx).1
    rw [← e]
    exact ⟨hnamed.names x hx', List.mem_map.2 ⟨x, hx', rfl⟩⟩
  have r1 : (c.axes.any fun a => a.name.isNone) = false := by
    rw [List.any_eq_false]
    intro a ha
    have := (hname a ha).1
    simpa [Option.isSome_iff_ne_none] using this
  have r2 : (axes.any fun a => a.name.isNone) = false := by
    rw [List.any_eq_false]
    intro a ha
    have := hnamed.names a ha
    simpa [Option.isSome_iff_ne_none] using this
  have r3 : (c.axes.any fun a => decide (a.name ∉ axes.map (·.name))) = false := by
    rw [List.any_eq_false]
    intro a ha
    simpa using (hname a ha).2
  have hkp : (c.axes.map fun a => axisAt axes ((axes.map (·.name)).idxOf a.name)) = keptAxes axes extra := by
    have h1 := idx_kept hnamed hch
    unfold keptAxes
    rw [← h1, List.map_map]
    rfl
  unfold addBatched
  rw [read_bind, g3]
  show (raiseIf _ _ >>= _) s = _
  rw [raiseIf_bind, r1]
  simp only [Bool.false_eq_true, if_false]
  rw [raiseIf_bind, r2]
  simp only [Bool.false_eq_true, if_false]
  rw [raiseIf_bind, r3]
  simp only [Bool.false_eq_true, if_false]
  rw [g1]
  show (lift (nc.get proc) >>= _) s = _
  rw [g2]
  show (lift (batchEntries cfg sort c norm kfac axes flat extra) >>= _) s = _
  rw [hl]
  show (lift (s.logkavg.get chan) >>= _) s = _
  rw [g4]
  show (lift (ac.get proc) >>= _) s = _
  rw [g5]
  show forEach _ (batchNames name _).zipIdx s = _
  rw [batchNames_eq, hkp]
  have hz : ((List.range (Writer.prod ((extra.map fun n => axisAt axes (pos axes n)).map (·.size)))).map
      (subName name (extra.map fun n => axisAt axes (pos axes n)))).zipIdx =
      (List.range (Writer.prod (extraSizes axes extra))).map fun i =>
        (subName name (extra.map fun n => axisAt axes (pos axes n)) i, i) := by
    have e : (extra.map fun n => axisAt axes (pos axes n)).map (·.size) = extraSizes axes extra := by
      unfold extraSizes
      rw [List.map_map, List.map_map]
      rfl
    rw [e]
    refine List.ext_getElem (by simp) fun i h1 h2 => ?_
    simp
  rw [hz]
  generalize List.range (Writer.prod (extraSizes axes extra)) = L
  clear hz hl hla hap hac hnp hnc g1 g2 g3 g4 g5 hsn hsl hsc
  induction L generalizing s with
  | nil => rfl
  | cons i L ih =>
    show M.bind _ _ s = M.bind _ _ s
    unfold M.bind
    dsimp only
    split
    · exact ih
    · rfl

end

end Verif.Batched
