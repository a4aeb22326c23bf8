import Verif.Lemmas.Untouched

/-! What an accepted call of `add_systematic` stores, bin by bin (dense mode, histograms of the size of the channel). -/

namespace Verif.Writer

open Verif.Logk M

set_option linter.unusedSectionVars false

variable {V : Type} [Field V] [LinearOrder V]

/-- content `u` of the varied template in bin `i`: the histogram itself, or nominal plus histogram for differences -/
def Spec.varied (h : HIn V) (flow asDiff : Bool) (i : Nat) (x u : V) : Prop :=
  ∃ v, (h.flatVals flow)[i]? = some (.fin v) ∧ u = if asDiff then x + v else v

theorem zipB_zip {α β γ : Type} {f : α → β → γ} {a : List α} {b : List β} {r : List γ} (h : zipB f a b = .ok r)
    (hl : a.length = b.length) {i : Nat} {x : α} {y : β} (hx : a[i]? = some x) (hy : b[i]? = some y) : r[i]? = some (f x y) := by
  unfold zipB at h
  rw [if_pos hl] at h
  cases h
  rw [List.getElem?_zipWith, hx, hy]

theorem get_of_length {α : Type} {l : List α} {i n : Nat} (hl : l.length = n) (hi : i < n) : ∃ x, l[i]? = some x :=
  ⟨_, List.getElem?_eq_getElem (hl ▸ hi)⟩

theorem logk_elem {N : Num V} {t : SystType} {k : V} {h : HIn V} {flow asDiff : Bool} {l : List V} {sv sv' : List (FVal V)}
    {lk : List V} (hz : (h.flatVals flow).length = l.length) (h1 : systVals h (.dense l) flow = .ok sv)
    (h2 : applyDiff asDiff l sv = .ok sv') (h3 : logkVals N t k sv' l = .ok lk) :
    t ≠ .other ∧ lk.length = l.length ∧
      ∀ i x, l[i]? = some x → ∃ u, Spec.varied h flow asDiff i x u ∧ lk[i]? = some (logkVal N t k u x) := by
  have e1 : h.flatVals flow = sv := Except.ok.inj h1
  subst e1
  have hl2 := applyDiff_len h2 hz
  have hl3 := logkVals_len h3 hl2
  unfold logkVals at h3
  split at h3
  · cases h3
  rename_i w hw
  split at h3
  · cases h3
  rename_i ht
  rw [finites_eq_some] at hw
  subst hw
  rw [List.length_map] at hl2
  refine ⟨ht, hl3, fun i x hx => ?_⟩
  have hi : i < l.length := (List.getElem?_eq_some_iff.1 hx).1
  obtain ⟨u, hu⟩ := get_of_length hl2 hi
  refine ⟨u, ?_, zipB_zip h3 hl2 hu hx⟩
  unfold applyDiff at h2
  split at h2
  · rename_i hd
    obtain ⟨v, hv⟩ := get_of_length hz hi
    have h4 := zipB_zip h2 hz.symm hx hv
    rw [List.getElem?_map, hu, Option.map_some] at h4
    have h5 := Option.some.inj h4
    cases v with
    | fin v => exact ⟨v, hv, by rw [if_pos hd]; exact FVal.fin.inj h5⟩
    | nan => cases h5
    | pinf => cases h5
    | ninf => cases h5
  · rename_i hd
    refine ⟨u, ?_, by rw [if_neg hd]⟩
    rw [Except.ok.inj h2, List.getElem?_map, hu, Option.map_some]

/-- a successful booking of a half difference changes one entry -/
theorem bookHalf_ok {cfg : Cfg V} {logk : LogkIn V} {chan p name : String} {s s' : State V}
    (h : bookLogk cfg true logk chan (some p) name s = (s', .ok ())) :
    ∃ n e, Spec.at2 s.norm chan p = some n ∧ bookedLogk cfg n logk = .ok e ∧ s'.norm = s.norm ∧
      s'.logkavg = s.logkavg ∧
      ∀ c q m, Spec.at3 s'.logkhalf c q m = if c = chan ∧ q = p ∧ m = name then some e else Spec.at3 s.logkhalf c q m := by
  unfold bookLogk at h
  rw [read_bind] at h
  obtain ⟨p', hp, h⟩ := lift_bind_ok h
  cases hp
  obtain ⟨nc, hnc, h⟩ := lift_bind_ok h
  obtain ⟨n, hn, h⟩ := lift_bind_ok h
  obtain ⟨e, he, h⟩ := lift_bind_ok h
  simp only [if_true] at h
  obtain ⟨d, hd, h⟩ := lift_bind_ok h
  cases h
  exact ⟨n, e, get_at2 hnc hn, he, rfl, rfl, fun c q m => upd3_at hd c q m⟩

theorem booked_dense {cfg : Cfg V} (hd : cfg.sparse = false) {l lk : List V} {e : LogkE V}
    (h : bookedLogk cfg (.dense l) (wrap (Norm.idx (.dense l)) lk) = .ok e) (hl : lk.length = l.length) :
    ∃ m, e = .dense m ∧ ∀ (i : Nat) x v, l[i]? = some x → lk[i]? = some v → m[i]? = some (maskNorm x v) := by
  have h' : (do
      let m ← zipB maskNorm l lk
      .ok (if cfg.sparse then .sparse (nonzeros m) else .dense m)) = Except.ok e := h
  cases hz : zipB maskNorm l lk with
  | error e => rw [hz] at h'; cases h'
  | ok m =>
    rw [hz] at h'
    simp only [bind, Except.bind, hd, Bool.false_eq_true, if_false] at h'
    cases h'
    exact ⟨m, rfl, fun i x v hx hv => zipB_zip hz hl.symm hx hv⟩

/-- the element-wise content of a stored variation -/
def Spec.storedAt (t : Dict String (Dict String (Dict String (LogkE V)))) (chan proc m : String) (f : Nat → V → V → Prop) (l : List V) :
    Prop := ∃ A, Spec.at3 t chan proc m = some (.dense A) ∧ ∀ i x, l[i]? = some x → ∃ v, A[i]? = some v ∧ f i x v

section
variable {cfg : Cfg V} (hd : cfg.sparse = false)
include hd

/-- an accepted single histogram -/
theorem single_stored {h : HIn V} {name proc chan : String} {k : V} {mirror : Bool} {symm : Symm} {toCov asDiff : Bool} {o : SystOpts}
    {s s' : State V} {c : Chan} {l : List V} (hc : s.channels.get? chan = some c) (hn : Spec.at2 s.norm chan proc = some (.dense l))
    (hz : (h.flatVals c.flow).length = l.length)
    (hok : addSystematic cfg (.single h) name proc chan k mirror symm toCov asDiff o s = (s', .ok ())) :
    s'.norm = s.norm ∧ s'.logkhalf = s.logkhalf ∧ effType cfg toCov ≠ .other ∧
      Spec.storedAt s'.logkavg chan proc name (fun i x v => ∃ u, Spec.varied h c.flow asDiff i x u ∧
        v = maskNorm x (logkVal cfg.num (effType cfg toCov) k u x)) l := by
  unfold addSystematic at hok
  rw [read_bind] at hok
  obtain ⟨nc, hnc, hok⟩ := lift_bind_ok hok
  obtain ⟨n, hn', hok⟩ := lift_bind_ok hok
  obtain ⟨ch, hch, hok⟩ := lift_bind_ok hok
  have e1 := get_at2 hnc hn'
  rw [hn] at e1
  cases e1
  have e2 : ch = c := by
    unfold Dict.get at hch
    rw [hc] at hch; cases hch; rfl
  subst e2
  dsimp only at hok
  rw [raiseIf_bind] at hok
  split at hok
  · cases hok
  obtain ⟨_, _, hok⟩ := lift_bind_ok hok
  obtain ⟨sv, h1, hok⟩ := lift_bind_ok hok
  obtain ⟨sv', h2, hok⟩ := lift_bind_ok hok
  obtain ⟨lk, h3, hok⟩ := lift_bind_ok hok
  obtain ⟨s1, _, h4, hok⟩ := bind_ok hok
  obtain ⟨ht, hlen, hel⟩ := logk_elem hz h1 h2 h3
  obtain ⟨n', e, hn2, he, k1, k2, k3⟩ := bookLogk_ok h4
  rw [hn] at hn2
  cases hn2
  obtain ⟨m, rfl, hm⟩ := booked_dense hd he hlen
  have hk := (keepsTab_bookSystematic (V := V) name toCov o).run s1
  rw [hok] at hk
  simp only [tab, Prod.mk.injEq] at hk
  refine ⟨hk.1.trans k1, hk.2.2.trans k2, ht, m, ?_, fun i x hx => ?_⟩
  · rw [hk.2.1, k3, if_pos ⟨rfl, rfl, rfl⟩]
  · obtain ⟨u, hu, hlk⟩ := hel i x hx
    exact ⟨_, hm i x _ hx hlk, u, hu, rfl⟩

/-- what `_compute_asym_syst` stores -/
theorem asym_stored {up down : List V} {name proc chan : String} {symm : Symm} {toCov : Bool} {o : SystOpts} {s s' : State V} {l : List V}
    {r : List V × String} (hn : Spec.at2 s.norm chan proc = some (.dense l)) (hu : up.length = l.length) (hw : down.length = l.length)
    (hok : computeAsymSyst cfg up down name (some proc) chan symm toCov (Norm.idx (.dense l)) o s = (s', .ok r)) :
    s'.norm = s.norm ∧ r.2 = avgName symm name ∧
      (∀ (i : Nat) u d, up[i]? = some u → down[i]? = some d → r.1[i]? = some (computeAsym cfg.num symm u d).avg) ∧ r.1.length = l.length ∧
      (symm = .none → Spec.storedAt s'.logkhalf chan proc name (fun i x v => ∃ u d, up[i]? = some u ∧ down[i]? = some d ∧
        v = maskNorm x (((computeAsym cfg.num symm u d).halfdiff).getD 0)) l) ∧
      (symm = .linear ∨ symm = .quadratic → Spec.storedAt s'.logkavg chan proc (name ++ "SymDiff")
        (fun i x v => ∃ u d, up[i]? = some u ∧ down[i]? = some d ∧ v = maskNorm x (((computeAsym cfg.num symm u d).symDiff).getD 0)) l) ∧
      (symm ≠ .none → s'.logkhalf = s.logkhalf) := by
  have hlen := computeAsymSyst_length (cfg := cfg) up down name chan _ _ symm toCov o _ hu hw s r (by rw [hok])
  obtain ⟨hname, havg, _, _⟩ := computeAsymSyst_ok hok
  have hav : ∀ (i : Nat) u d, up[i]? = some u → down[i]? = some d → r.1[i]? = some (computeAsym cfg.num symm u d).avg :=
    fun i u d h1 h2 => zipB_zip havg (hu.trans hw.symm) h1 h2
  unfold computeAsymSyst at hok
  obtain ⟨avg, _, hok⟩ := lift_bind_ok hok
  have hget : ∀ {f : V → V → V} {b : List V}, zipB f up down = .ok b → ∀ (i : Nat) x, l[i]? = some x →
      ∃ u d, up[i]? = some u ∧ down[i]? = some d ∧ b[i]? = some (f u d) := by
    intro f b hb i x hx
    have hi : i < l.length := (List.getElem?_eq_some_iff.1 hx).1
    obtain ⟨u, h1⟩ := get_of_length hu hi
    obtain ⟨d, h2⟩ := get_of_length hw hi
    exact ⟨u, d, h1, h2, zipB_zip hb (hu.trans hw.symm) h1 h2⟩
  have hblen : ∀ {f : V → V → V} {b : List V}, zipB f up down = .ok b → b.length = l.length := by
    intro f b hb
    rw [zipB_length hb, if_pos (hu.trans hw.symm)]; exact hu
  cases symm with
  | conservative =>
    cases hok
    exact ⟨rfl, hname, hav, hlen, by rintro ⟨⟩, by rintro (⟨⟨⟩⟩ | ⟨⟨⟩⟩), fun _ => rfl⟩
  | average =>
    cases hok
    exact ⟨rfl, hname, hav, hlen, by rintro ⟨⟩, by rintro (⟨⟨⟩⟩ | ⟨⟨⟩⟩), fun _ => rfl⟩
  | linear | quadratic =>
    dsimp only at hok
    obtain ⟨df, hdf, hok⟩ := lift_bind_ok hok
    obtain ⟨s1, _, h1, hok⟩ := bind_ok hok
    obtain ⟨s2, _, h2, hok⟩ := bind_ok hok
    cases hok
    obtain ⟨n', e, hn2, he, k1, k2, k3⟩ := bookLogk_ok h1
    rw [hn] at hn2
    cases hn2
    obtain ⟨m, rfl, hm⟩ := booked_dense hd he (hblen hdf)
    have hk := (keepsTab_bookSystematic (V := V) (name ++ "SymDiff") toCov o).run s1
    rw [h2] at hk
    simp only [tab, Prod.mk.injEq] at hk
    refine ⟨hk.1.trans k1, hname, hav, hlen, by rintro ⟨⟩, fun _ => ⟨m, ?_, fun i x hx => ?_⟩, fun _ => hk.2.2.trans k2⟩
    · rw [hk.2.1, k3, if_pos ⟨rfl, rfl, rfl⟩]
    · obtain ⟨u, d, g1, g2, g3⟩ := hget hdf i x hx
      exact ⟨_, hm i x _ hx g3, u, d, g1, g2, rfl⟩
  | none =>
    dsimp only at hok
    rw [raiseIf_bind] at hok
    split at hok
    · cases hok
    rw [modify_bind] at hok
    obtain ⟨df, hdf, hok⟩ := lift_bind_ok hok
    obtain ⟨s1, _, h1, hok⟩ := bind_ok hok
    cases hok
    obtain ⟨n', e, hn2, he, k1, k2, k3⟩ := bookHalf_ok h1
    have hn3 : Spec.at2 s.norm chan proc = some n' := hn2
    rw [hn] at hn3
    cases hn3
    obtain ⟨m, rfl, hm⟩ := booked_dense hd he (hblen hdf)
    refine ⟨k1, hname, hav, hlen, fun _ => ⟨m, ?_, fun i x hx => ?_⟩, by rintro (⟨⟨⟩⟩ | ⟨⟨⟩⟩), fun h => absurd rfl h⟩
    · rw [k3, if_pos ⟨rfl, rfl, rfl⟩]
    · obtain ⟨u, d, g1, g2, g3⟩ := hget hdf i x hx
      exact ⟨_, hm i x _ hx g3, u, d, g1, g2, rfl⟩

/-- an accepted pair of histograms -/
theorem pair_stored {hu hw : HIn V} {name proc chan : String} {k : V} {mirror : Bool} {symm : Symm} {toCov asDiff : Bool} {o : SystOpts}
    {s s' : State V} {c : Chan} {l : List V} (hc : s.channels.get? chan = some c) (hn : Spec.at2 s.norm chan proc = some (.dense l))
    (hz : (hu.flatVals c.flow).length = l.length) (hz' : (hw.flatVals c.flow).length = l.length)
    (hok : addSystematic cfg (.pair hu hw) name proc chan k mirror symm toCov asDiff o s = (s', .ok ())) :
    let A := fun u d x => computeAsym cfg.num symm (logkVal cfg.num (effType cfg toCov) k u x) (-(logkVal cfg.num (effType cfg toCov) k d x))
    let S := fun (t : Dict String (Dict String (Dict String (LogkE V)))) m (g : Asym V → V) =>
      Spec.storedAt t chan proc m (fun i x v => ∃ u d, Spec.varied hu c.flow asDiff i x u ∧ Spec.varied hw c.flow asDiff i x d ∧
        v = maskNorm x (g (A u d x))) l
    s'.norm = s.norm ∧ effType cfg toCov ≠ .other ∧ S s'.logkavg (avgName symm name) Asym.avg ∧
      (symm = .none → S s'.logkhalf name fun a => a.halfdiff.getD 0) ∧
      (symm = .linear ∨ symm = .quadratic → S s'.logkavg (name ++ "SymDiff") fun a => a.symDiff.getD 0) ∧
      (symm ≠ .none → s'.logkhalf = s.logkhalf) := by
  intro A S
  unfold addSystematic at hok
  rw [read_bind] at hok
  obtain ⟨nc, hnc, hok⟩ := lift_bind_ok hok
  obtain ⟨n, hn', hok⟩ := lift_bind_ok hok
  obtain ⟨ch, hch, hok⟩ := lift_bind_ok hok
  have e1 := get_at2 hnc hn'
  rw [hn] at e1
  cases e1
  have e2 : ch = c := by
    unfold Dict.get at hch
    rw [hc] at hch; cases hch; rfl
  subst e2
  dsimp only at hok
  obtain ⟨_, _, hok⟩ := lift_bind_ok hok
  obtain ⟨_, _, hok⟩ := lift_bind_ok hok
  obtain ⟨su, h1, hok⟩ := lift_bind_ok hok
  obtain ⟨sd, h1', hok⟩ := lift_bind_ok hok
  obtain ⟨su', h2, hok⟩ := lift_bind_ok hok
  obtain ⟨sd', h2', hok⟩ := lift_bind_ok hok
  obtain ⟨up, h3, hok⟩ := lift_bind_ok hok
  obtain ⟨dn, h3', hok⟩ := lift_bind_ok hok
  obtain ⟨s1, r, h4, hok⟩ := bind_ok hok
  obtain ⟨s2, _, h5, hok⟩ := bind_ok hok
  obtain ⟨ht, hlen, hel⟩ := logk_elem hz h1 h2 h3
  obtain ⟨_, hlen', hel'⟩ := logk_elem hz' h1' h2' h3'
  obtain ⟨a1, a2, a3, a4, a5, a6, a7⟩ := asym_stored hd hn hlen (by rw [List.length_map]; exact hlen') h4
  obtain ⟨n', e, hn2, he, k1, k2, k3⟩ := bookLogk_ok h5
  rw [a1, hn] at hn2
  cases hn2
  obtain ⟨m, rfl, hm⟩ := booked_dense hd he a4
  have hk := (keepsTab_bookSystematic (V := V) r.2 toCov o).run s2
  rw [hok] at hk
  simp only [tab, Prod.mk.injEq] at hk
  -- the values of one bin
  have hbin : ∀ {i : Nat} {x u d}, l[i]? = some x → up[i]? = some u → (dn.map fun v => -v)[i]? = some d →
      ∃ u' d', Spec.varied hu ch.flow asDiff i x u' ∧ Spec.varied hw ch.flow asDiff i x d' ∧
        u = logkVal cfg.num (effType cfg toCov) k u' x ∧ d = -(logkVal cfg.num (effType cfg toCov) k d' x) := by
    intro i x u d hx h6 h7
    obtain ⟨u', g1, g2⟩ := hel i x hx
    obtain ⟨d', g3, g4⟩ := hel' i x hx
    rw [h6] at g2
    rw [List.getElem?_map, g4, Option.map_some] at h7
    exact ⟨u', d', g1, g3, Option.some.inj g2, (Option.some.inj h7).symm⟩
  refine ⟨hk.1.trans (k1.trans a1), ht, ⟨m, ?_, fun i x hx => ?_⟩, fun hs => ?_, fun hs => ?_, fun hs => ?_⟩
  · rw [hk.2.1, k3, if_pos ⟨rfl, rfl, a2.symm⟩]
  · have hi : i < l.length := (List.getElem?_eq_some_iff.1 hx).1
    obtain ⟨u, h6⟩ := get_of_length hlen hi
    obtain ⟨d, h7⟩ := get_of_length (l := dn.map fun v => -v) (by rw [List.length_map]; exact hlen') hi
    obtain ⟨u', d', g1, g2, rfl, rfl⟩ := hbin hx h6 h7
    exact ⟨_, hm i x _ hx (a3 i _ _ h6 h7), u', d', g1, g2, rfl⟩
  · obtain ⟨B, hB, hB'⟩ := a5 hs
    refine ⟨B, ?_, fun i x hx => ?_⟩
    · rw [hk.2.2, k2]; exact hB
    · obtain ⟨v, hv, u, d, h6, h7, rfl⟩ := hB' i x hx
      obtain ⟨u', d', g1, g2, rfl, rfl⟩ := hbin hx h6 h7
      exact ⟨_, hv, u', d', g1, g2, rfl⟩
  · obtain ⟨B, hB, hB'⟩ := a6 hs
    refine ⟨B, ?_, fun i x hx => ?_⟩
    · rw [hk.2.1, k3, if_neg]
      · exact hB
      · rintro ⟨_, _, he'⟩
        rw [a2] at he'
        rcases hs with rfl | rfl <;> exact absurd ((String.append_right_inj _).1 he') (by decide)
    · obtain ⟨v, hv, u, d, h6, h7, rfl⟩ := hB' i x hx
      obtain ⟨u', d', g1, g2, rfl, rfl⟩ := hbin hx h6 h7
      exact ⟨_, hv, u', d', g1, g2, rfl⟩
  · rw [hk.2.2, k2]; exact a7 hs

end

end Verif.Writer
