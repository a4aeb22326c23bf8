import Verif.Model.AsymTable
import Verif.Props.Scans
import Verif.Props.Impacts
import Verif.Props.ContourEval

/-!
C92: tables of traditional asymmetric impacts.
-/

namespace Verif.AsymTable

open Verif.Scans Verif.FitParams

/-! ### Which nuisances are scanned -/

section
variable {V : Type} [Field V] [LinearOrder V]

/-- value of the sparse tensor at a position (zero if it has no entry) -/
def Spec.at (entries : List ((Nat × Nat) × V)) (row col : Nat) : V := match entries.find? fun e => e.1 == (row, col) with
  | some e => e.2
  | none => 0

/-- the nuisance has a template in which up and down differ by more than `atol` -/
def Spec.Asymmetric (nsyst : Nat) (atol : V) (i : Nat) : Logk V → Prop
  | .symmetric => False
  | .sparse entries => ∃ row, atol < |Spec.at entries row (nsyst + i)|
  | .dense nb np f => ∃ b < nb, ∃ p < np, atol < |f b p 1 i|

omit [LinearOrder V] in
theorem at_mem {entries : List ((Nat × Nat) × V)} (hnd : (entries.map (·.1)).Nodup) {e : (Nat × Nat) × V} (he : e ∈ entries) :
    Spec.at entries e.1.1 e.1.2 = e.2 := by
  have : entries.find? (fun e' => e'.1 == (e.1.1, e.1.2)) = some e := by
    induction entries with
    | nil => cases he
    | cons a l ih =>
      rw [List.map_cons, List.nodup_cons] at hnd
      rw [List.find?_cons]
      rcases List.mem_cons.1 he with rfl | he'
      · simp
      · have : a.1 ≠ e.1 := fun h => hnd.1 (h ▸ List.mem_map_of_mem he')
        rw [show (a.1 == (e.1.1, e.1.2)) = false from by simpa using this]
        exact ih hnd.2 he'
  unfold Spec.at
  rw [this]

variable [IsStrictOrderedRing V]

/-- C92.  The mask has one entry per nuisance and is set exactly for those with an asymmetric template, in both layouts (each
position of the sparse tensor is listed once, its columns are those of the averages and of the half differences). -/
theorem c92_mask (nsyst : Nat) (logk : Logk V) (atol : V) (hatol : 0 ≤ atol)
    (hsp : ∀ entries, logk = .sparse entries → (entries.map (·.1)).Nodup ∧ ∀ e ∈ entries, e.1.2 < 2 * nsyst) :
    ∃ m : List Bool, mask nsyst logk atol = .ok m ∧ m.length = nsyst ∧
      ∀ i < nsyst, m[i]? = some true ↔ Spec.Asymmetric nsyst atol i logk := by
  cases logk with
  | symmetric => exact ⟨_, rfl, by simp, fun i hi => by simp [Spec.Asymmetric, List.getElem?_replicate]⟩
  | dense nb np f =>
    refine ⟨_, rfl, by simp [maskDense], fun i hi => ?_⟩
    simp [maskDense, Spec.Asymmetric, hi]
  | sparse entries =>
    obtain ⟨hnd, hcol⟩ := hsp entries rfl
    have hall : (((entries.filter fun e => decide (nsyst ≤ e.1.2 ∧ atol < |e.2|)).map fun e => e.1.2 - nsyst).all
        fun k => decide (k < nsyst)) = true := by
      rw [List.all_eq_true]
      intro k hk
      obtain ⟨e, he, rfl⟩ := List.mem_map.1 hk
      rw [List.mem_filter] at he
      have h1 := hcol e he.1
      have h2 := (of_decide_eq_true he.2).1
      exact decide_eq_true (by omega)
    refine ⟨(List.range nsyst).map fun i => decide (i ∈ (entries.filter fun e => decide (nsyst ≤ e.1.2 ∧ atol < |e.2|)).map fun e => e.1.2 - nsyst),
      ?_, by simp, fun i hi => ?_⟩
    · show maskSparse nsyst entries atol = _
      unfold maskSparse
      dsimp only
      rw [if_pos hall]
    · rw [List.getElem?_map, List.getElem?_range hi, Option.map_some, Option.some_inj, decide_eq_true_iff, List.mem_map]
      constructor
      · rintro ⟨e, he, rfl⟩
        rw [List.mem_filter] at he
        obtain ⟨h2, h3⟩ := of_decide_eq_true he.2
        refine ⟨e.1.1, ?_⟩
        rw [Nat.add_sub_cancel' h2, at_mem hnd he.1]
        exact h3
      · rintro ⟨row, hrow⟩
        unfold Spec.at at hrow
        split at hrow
        · rename_i e hf
          have h1 := List.find?_some hf
          have h1' : e.1 = (row, nsyst + i) := by simpa using h1
          refine ⟨e, List.mem_filter.2 ⟨List.mem_of_find?_eq_some hf, decide_eq_true ⟨?_, hrow⟩⟩, ?_⟩
          · rw [h1']; exact Nat.le_add_right _ _
          · rw [h1']; exact Nat.add_sub_cancel_left _ _
        · rw [abs_zero] at hrow
          exact absurd hrow (not_lt.2 hatol)

/-- C92.  The two layouts of the same templates have the same mask. -/
theorem c92_layouts (nsyst nb np : Nat) (entries : List ((Nat × Nat) × V)) (f : Nat → Nat → Nat → Nat → V) (atol : V) (hatol : 0 ≤ atol)
    (hnd : (entries.map (·.1)).Nodup) (hcol : ∀ e ∈ entries, e.1.2 < 2 * nsyst)
    (hfrom : ∀ i < nsyst, ∀ b < nb, ∀ p < np, f b p 1 i ≠ 0 → ∃ row, Spec.at entries row (nsyst + i) = f b p 1 i)
    (hto : ∀ i < nsyst, ∀ row, Spec.at entries row (nsyst + i) ≠ 0 → ∃ b < nb, ∃ p < np, f b p 1 i = Spec.at entries row (nsyst + i)) :
    mask nsyst (.sparse entries) atol = mask nsyst (.dense nb np f) atol := by
  obtain ⟨m, h1, l1, e1⟩ := c92_mask nsyst (.sparse entries) atol hatol (by rintro _ ⟨⟩; exact ⟨hnd, hcol⟩)
  obtain ⟨m', h2, l2, e2⟩ := c92_mask nsyst (.dense nb np f) atol hatol (fun _ h => by cases h)
  rw [h1, h2]
  congr 1
  apply List.ext_getElem (l1.trans l2.symm)
  intro i hi hi'
  have hn : i < nsyst := l1 ▸ hi
  have a1 := e1 i hn
  have a2 := e2 i hn
  rw [List.getElem?_eq_getElem hi, Option.some_inj] at a1
  rw [List.getElem?_eq_getElem hi', Option.some_inj] at a2
  rw [Bool.eq_iff_iff, a1, a2]
  constructor
  · rintro ⟨row, hr⟩
    obtain ⟨b, hb, p, hp, h⟩ := hto i hn row (fun h0 => by rw [h0, abs_zero] at hr; exact absurd hr (not_lt.2 hatol))
    exact ⟨b, hb, p, hp, h ▸ hr⟩
  · rintro ⟨b, hb, p, hp, hr⟩
    obtain ⟨row, h⟩ := hfrom i hn b hb p hp (fun h0 => by rw [h0, abs_zero] at hr; exact absurd hr (not_lt.2 hatol))
    exact ⟨row, h ▸ hr⟩

/-- C92.  The nuisances scanned are those selected by an include expression and by no exclude expression, and with the option to
skip symmetric ones only those with an asymmetric template, in the order of the nuisances. -/
theorem c92_selected (rx : Regex) (skip : Bool) (logk : Logk V) (incl excl : Option (List String)) (systs : List String)
    (l : List (Nat × String)) (h : selectSysts rx skip logk incl excl systs = .ok l)
    (hsp : ∀ entries, logk = .sparse entries → (entries.map (·.1)).Nodup ∧ ∀ e ∈ entries, e.1.2 < 2 * systs.length) :
    (l.map (·.1)).Pairwise (· < ·) ∧
      ∀ i n, (i, n) ∈ l ↔ systs[i]? = some n ∧ (skip = true → Spec.Asymmetric systs.length 0 i logk) ∧
        (∀ es, incl = some es → ∃ e ∈ es, Spec.Selects rx e n) ∧ ∀ es, excl = some es → ¬ ∃ e ∈ es, Spec.Selects rx e n := by
  have hm : ∃ m : List Bool, (if skip then mask systs.length logk 0 else .ok (List.replicate systs.length true) : Res (List Bool)) = .ok m ∧
      ∀ i < systs.length, m.getD i false = true ↔ (skip = true → Spec.Asymmetric systs.length 0 i logk) := by
    cases skip with
    | false =>
      refine ⟨_, rfl, fun i hi => ?_⟩
      simp [List.getD_eq_getElem?_getD, hi]
    | true =>
      obtain ⟨m, h1, l1, e1⟩ := c92_mask systs.length logk 0 le_rfl hsp
      refine ⟨m, h1, fun i hi => ?_⟩
      rw [← e1 i hi, List.getD_eq_getElem?_getD, List.getElem?_eq_getElem (l1 ▸ hi)]
      simp
  obtain ⟨m, hm, hmi⟩ := hm
  unfold selectSysts at h
  rw [hm] at h
  change Except.map _ _ = _ at h
  cases hsel : asymSelect rx incl excl systs with
  | error e => rw [hsel] at h; cases h
  | ok sel =>
    rw [hsel] at h
    cases h
    have hspec := asymSelect_spec rx incl excl systs sel hsel
    constructor
    · rw [List.map_filterMap, List.pairwise_filterMap]
      refine List.Pairwise.imp ?_ (List.pairwise_lt_range (n := systs.length))
      intro a b hab x hx y hy
      have ha : x = a := by
        split at hx
        · cases hx; rfl
        · cases hx
      have hb : y = b := by
        split at hy
        · cases hy; rfl
        · cases hy
      omega
    · intro i n
      simp only [List.mem_filterMap, List.mem_range, Option.ite_none_right_eq_some, Option.some_inj, Prod.mk.injEq, Bool.and_eq_true]
      constructor
      · rintro ⟨i', hi, ⟨h1, h2⟩, rfl, rfl⟩
        have hs : systs[i']? = some (systs.getD i' "") := by
          rw [List.getD_eq_getElem?_getD, List.getElem?_eq_getElem hi]; rfl
        exact ⟨hs, (hmi i' hi).1 h1, (hspec _ (List.mem_of_getElem? hs)).1 h2⟩
      · rintro ⟨hs, h1, h2⟩
        obtain ⟨hi, hs'⟩ := List.getElem?_eq_some_iff.1 hs
        have hn : systs.getD i "" = n := by rw [List.getD_eq_getElem?_getD, hs]; rfl
        exact ⟨i, hi, ⟨(hmi i hi).2 h1, hn.symm ▸ (hspec n (List.mem_of_getElem? hs)).2 h2⟩, rfl, hn⟩

end

/-! ### The rows of single nuisances -/

section
variable {V : Type} [Field V]

/-- the shifts of a side of a scan are in the table; zero if the scan of that side failed -/
def Spec.Side (r : List (Option V × Option (Vec V))) (k : Nat) (v : Vec V) : Prop :=
  (∀ d w, r[k]? = some (d, some w) → v = w) ∧ ((∀ d w, r[k]? ≠ some (d, some w)) → ∀ j, v j = 0)

theorem sideShift_spec (r : List (Option V × Option (Vec V))) (k : Nat) : Spec.Side r k (sideShift r k) := by
  unfold sideShift Spec.Side
  constructor
  · intro d w h
    rw [h]
  · intro h j
    cases hk : r[k]? with
    | none => rfl
    | some q =>
      obtain ⟨d, w⟩ := q
      cases w with
      | none => rfl
      | some w => exact absurd hk (h d w)

/-- C92.  Each row of the table holds the shifts of all parameters at the two ends of the contour of its nuisance, down first, found from the
same state of the fit; the state is kept. -/
theorem c92_rows (opt : Nat → Vec V → Contour V) (obs : Option (Vec V → V)) (dx : Nat → List Nat → Vec V) (c : Nat) (names : List String)
    (s s' : Sess V) (rows : List (Vec V × Vec V))
    (h : asymRows (fun c n s => contourScan opt obs dx n [-1, 1] c s) c names s = (s', .ok rows)) :
    s' = s ∧ rows.length = names.length ∧
      ∀ (k : Nat) (n : String), names[k]? = some n → ∃ (r : List (Option V × Option (Vec V))) (row : Vec V × Vec V),
        rows[k]? = some row ∧ contourScan opt obs dx n [-1, 1] (c + 2 * k) s = (s, .ok r) ∧ Spec.Side r 0 row.1 ∧ Spec.Side r 1 row.2 := by
  induction names generalizing c s s' rows with
  | nil =>
    unfold asymRows at h
    cases h
    exact ⟨rfl, rfl, fun k n hk => by simp at hk⟩
  | cons n ns ih =>
    unfold asymRows at h
    split at h
    · cases (Prod.mk.inj h).2
    · rename_i s1 r hr
      have hs := c41_contour opt obs dx n [-1, 1] c s s1 r hr
      subst hs
      split at h
      · cases (Prod.mk.inj h).2
      · rename_i s2 rs hrs
        obtain ⟨e1, e2⟩ := Prod.mk.inj h
        cases e2
        subst e1
        obtain ⟨i1, i2, i3⟩ := ih (c + 2) s1 s2 rs hrs
        refine ⟨i1, by simp [i2], fun k m hk => ?_⟩
        cases k with
        | zero =>
          simp only [List.getElem?_cons_zero, Option.some_inj] at hk
          subst hk
          exact ⟨r, _, rfl, hr, sideShift_spec r 0, sideShift_spec r 1⟩
        | succ k =>
          obtain ⟨r', row, h1, h2, h3⟩ := i3 k m (by simpa using hk)
          refine ⟨r', row, by simpa using h1, ?_, h3⟩
          rw [show c + 2 * (k + 1) = c + 2 + 2 * k by ring]
          exact h2

end

/-! ### Groups -/

noncomputable section

/-- the state in which the parameters of `P` are frozen in addition, everything else as before -/
def Spec.AlsoFrozen (s : Sess ℝ) (P : String → Prop) (s' : Sess ℝ) : Prop :=
  s'.x = s.x ∧ s'.x0 = s.x0 ∧ s'.fr.parms = s.fr.parms ∧ updateFrozen s'.fr = s'.fr ∧
    ∀ n ∈ s.fr.parms, n ∈ s'.fr.frozenParams ↔ n ∈ s.fr.frozenParams ∨ P n

/-- `v` is the end (0: lower, 1: upper) of the interval of `t` scanned with the parameters of `P` frozen in addition -/
def Spec.End (scan : ScanFn ℝ) (s : Sess ℝ) (P : String → Prop) (t : String) (side : Nat) (v : Option ℝ) : Prop :=
  ∃ c s' r, Spec.AlsoFrozen s P s' ∧ scan c t s' = (s', .ok r) ∧ v = (r[side]?).bind (·.1)

/-- the same for parameters that cannot be scanned if they are frozen -/
def Spec.FrozenEnd (scan : ScanFn ℝ) (s : Sess ℝ) (P : String → Prop) (t : String) (side : Nat) (v : Option ℝ) : Prop :=
  (P t ∨ t ∈ s.fr.frozenParams → v = none) ∧ (¬ P t → t ∉ s.fr.frozenParams → Spec.End scan s P t side v)

theorem scanTargets_get (scan : ScanFn ℝ) (hscan : ∀ c t s, KeepsSess s (scan c t s)) (c : Nat) (ts : List String) (s s' : Sess ℝ)
    (rs : List (String × List (Option ℝ × Option (Vec ℝ)))) (h : scanTargets scan c ts s = (s', .ok rs)) :
    s' = s ∧ (∀ t ∈ ts, ∃ c' r, scan c' t s = (s, .ok r) ∧ ∀ side, interval rs t side = (r[side]?).bind (·.1)) ∧
      ∀ t, t ∉ ts → ∀ side, interval rs t side = none := by
  induction ts generalizing c s s' rs with
  | nil =>
    unfold scanTargets at h
    cases h
    exact ⟨rfl, nofun, fun _ _ _ => rfl⟩
  | cons t ts ih =>
    unfold scanTargets at h
    split at h
    · cases (Prod.mk.inj h).2
    · rename_i s1 r hr
      have hk := hscan c t s
      rw [hr] at hk
      have hs := hk.eq
      subst hs
      split at h
      · cases (Prod.mk.inj h).2
      · rename_i s2 rs' hrs
        obtain ⟨e1, e2⟩ := Prod.mk.inj h
        cases e2
        subst e1
        obtain ⟨i1, i2, i3⟩ := ih (c + 2) s1 s2 rs' hrs
        have hcons : ∀ u side, interval ((t, r) :: rs') u side = if t = u then (r[side]?).bind (·.1) else interval rs' u side := by
          intro u side
          unfold interval
          rw [List.find?_cons]
          by_cases hu : t = u
          · rw [if_pos hu, show (t == u) = true by simpa using hu]
          · rw [if_neg hu, show (t == u) = false by simpa using hu]
        refine ⟨i1, fun u hu => ?_, fun u hu side => ?_⟩
        · by_cases htu : t = u
          · subst htu
            exact ⟨c, r, hr, fun side => by rw [hcons, if_pos rfl]⟩
          · obtain ⟨c', r', h1, h2⟩ := i2 u ((List.mem_cons.1 hu).resolve_left fun h => htu h.symm)
            exact ⟨c', r', h1, fun side => by rw [hcons, if_neg htu, h2]⟩
        · rw [List.mem_cons, not_or] at hu
          rw [hcons, if_neg fun h => hu.1 h.symm]
          exact i3 u hu.2 side

theorem freeze_also (rx : Regex) (es : List String) (s : Sess ℝ) (fr : FreezeState) (hplain : ∀ m ∈ es, Scans.Spec.plain rx m)
    (h : freezeParams rx es s.fr = (fr, .ok ())) :
    fr.parms = s.fr.parms ∧ updateFrozen fr = fr ∧ ∀ n ∈ s.fr.parms, n ∈ fr.frozenParams ↔ n ∈ s.fr.frozenParams ∨ n ∈ es := by
  unfold freezeParams at h
  cases hm : matchParams rx es s.fr.parms with
  | error e => simp [hm] at h
  | ok ms =>
    simp only [hm, Prod.mk.injEq, and_true] at h
    subst h
    refine ⟨rfl, rfl, fun n hn => ?_⟩
    show n ∈ s.fr.frozenParams ++ ms ↔ _
    rw [List.mem_append, c25_selects rx es s.fr.parms ms hm n]
    constructor
    · rintro (h | ⟨-, e, he, hs⟩)
      · exact .inl h
      · exact .inr (hplain e he n hs ▸ he)
    · rintro (h | h)
      · exact .inl h
      · exact .inr ⟨hn, n, h, .inl rfl⟩

theorem scanWithFrozen_get (rx : Regex) (scan : ScanFn ℝ) (hscan : ∀ c t s, KeepsSess s (scan c t s)) (c : Nat)
    (targets members : List String) (s s' : Sess ℝ) (hup : updateFrozen s.fr = s.fr) (hplain : ∀ m ∈ members, Scans.Spec.plain rx m)
    (rs : List (String × List (Option ℝ × Option (Vec ℝ))))
    (h : scanWithFrozen rx scan c s.fr.frozenParams targets members s = (s', .ok rs)) :
    ∀ t ∈ targets, ∀ side, Spec.FrozenEnd scan s (· ∈ members) t side (interval rs t side) := by
  intro t ht side
  have hmem : t ∈ (targets.filter fun t => !(members.contains t || s.fr.frozenParams.contains t)) ↔
      ¬ (t ∈ members ∨ t ∈ s.fr.frozenParams) := by
    simp [ht]
  unfold scanWithFrozen at h
  dsimp only at h
  split at h
  · rename_i hemp
    obtain ⟨-, i2, i3⟩ := scanTargets_get scan hscan _ _ _ _ _ h
    refine ⟨fun hP => i3 t (fun hc => hmem.1 hc hP) side, fun h1 h2 => ?_⟩
    obtain ⟨c', r, hr, hv⟩ := i2 t (hmem.2 fun h => h.elim h1 h2)
    refine ⟨c', s, r, ⟨rfl, rfl, rfl, hup, fun n hn => ?_⟩, hr, hv side⟩
    refine ⟨.inl, fun h => h.elim id fun hm => ?_⟩
    by_contra hnf
    have : n ∈ members.filter fun m => !s.fr.frozenParams.contains m := by simp [hm, hnf]
    rw [List.isEmpty_iff.1 hemp] at this
    cases this
  · split at h
    · cases (Prod.mk.inj h).2
    · rename_i fr hfr
      have ha := freeze_also rx _ s fr (fun m hm => hplain m (List.mem_filter.1 hm).1) hfr
      generalize hq : scanTargets scan c (targets.filter fun t => !(members.contains t || s.fr.frozenParams.contains t)) { s with fr := fr } = q at h
      obtain ⟨s1, r1⟩ := q
      dsimp only at h
      have hr1 : r1 = .ok rs := by
        split at h
        · cases (Prod.mk.inj h).2
        · exact (Prod.mk.inj h).2
      subst hr1
      obtain ⟨i1, i2, i3⟩ := scanTargets_get scan hscan _ _ _ _ _ hq
      refine ⟨fun hP => i3 t (fun hc => hmem.1 hc hP) side, fun h1 h2 => ?_⟩
      obtain ⟨c', r, hr, hv⟩ := i2 t (hmem.2 fun h => h.elim h1 h2)
      refine ⟨c', { s with fr := fr }, r, ⟨rfl, rfl, ha.1, ha.2.1, fun n hn => ?_⟩, hr, hv side⟩
      rw [ha.2.2 n hn]
      by_cases hnf : n ∈ s.fr.frozenParams <;> simp [hnf]

theorem scanGroups_get (rx : Regex) (scan : ScanFn ℝ) (hscan : ∀ c t s, KeepsSess s (scan c t s)) (targets : List String) (c : Nat)
    (groups : List (List String)) (s s' : Sess ℝ) (hup : updateFrozen s.fr = s.fr) (hplain : ∀ g ∈ groups, ∀ m ∈ g, Scans.Spec.plain rx m)
    (rs : List (List (String × List (Option ℝ × Option (Vec ℝ)))))
    (h : scanGroups rx scan s.fr.frozenParams targets c groups s = (s', .ok rs)) :
    List.Forall₂ (fun g r => ∀ t ∈ targets, ∀ side, Spec.FrozenEnd scan s (· ∈ g) t side (interval r t side)) groups rs := by
  induction groups generalizing c s' rs with
  | nil =>
    unfold scanGroups at h
    cases h
    exact .nil
  | cons g gs ih =>
    unfold scanGroups at h
    have h1 := scanWithFrozen_keeps rx scan hscan c targets g s hup (hplain g (by simp))
    split at h
    · cases (Prod.mk.inj h).2
    · rename_i s1 r hr
      rw [hr] at h1
      have hs := h1.eq
      subst hs
      split at h
      · cases (Prod.mk.inj h).2
      · rename_i s2 rs' hrs
        obtain ⟨e1, e2⟩ := Prod.mk.inj h
        cases e2
        exact .cons (scanWithFrozen_get rx scan hscan c targets g s1 s1 hup (hplain g (by simp)) r hr)
          (ih (c + 2 * targets.length) s2 (fun g' hg' => hplain g' (by simp [hg'])) rs' hrs)

theorem groupTables_get (cols : List (String × Nat)) (totals : List (String × List (Option ℝ × Option (Vec ℝ))))
    (rs : List (List (String × List (Option ℝ × Option (Vec ℝ))))) (stat : List (String × List (Option ℝ × Option (Vec ℝ)))) :
    groupTables cols totals (rs ++ [stat]) =
      rs.map (fun r => tabulate cols fun t side => quadSide (side == 0) (interval totals t side) (interval r t side)) ++
        [tabulate cols (interval stat), tabulate cols (interval totals)] := by
  induction rs with
  | nil => rfl
  | cons r rs ih =>
    rw [List.map_cons, List.cons_append, List.cons_append, ← ih]
    obtain ⟨b, l, hb⟩ : ∃ b l, rs ++ [stat] = b :: l := by
      cases rs with
      | nil => exact ⟨_, _, rfl⟩
      | cons b l => exact ⟨_, _, rfl⟩
    rw [hb]
    rfl

theorem tabulate_get {parms targets : List String} {cols : List (String × Nat)} (h : targetCols parms targets = .ok cols)
    (f : String → Nat → Option ℝ) :
    (∀ t ∈ targets, ∀ col, parms[col]? = some t → t ∉ parms.take col → ∀ side, tabulate cols f side col = f t side) ∧
      ∀ col, (∀ t ∈ targets, parms[col]? ≠ some t) → ∀ side, tabulate cols f side col = none := by
  have hidx : ∀ t i, paramIdx parms t = .ok i → parms[i]? = some t ∧ t ∉ parms.take i := by
    intro t i hi
    unfold paramIdx at hi
    split at hi
    · rename_i k hk
      cases hi
      rw [List.findIdx?_eq_some_iff_getElem] at hk
      obtain ⟨hlt, h1, h2⟩ := hk
      refine ⟨by rw [List.getElem?_eq_getElem hlt]; simpa using h1, fun hm => ?_⟩
      obtain ⟨j, hj, e⟩ := List.mem_iff_getElem.1 hm
      rw [List.getElem_take] at e
      have hjk : j < i := by rw [List.length_take] at hj; omega
      exact h2 j hjk (by simpa using e)
    · cases hi
  have hf2 := Impacts.mapM_ok h
  have hin : ∀ p ∈ cols, p.1 ∈ targets ∧ paramIdx parms p.1 = .ok p.2 := by
    intro p hp
    obtain ⟨k, hk⟩ := List.mem_iff_getElem?.1 hp
    obtain ⟨t, ht, e⟩ := (Impacts.forall₂_getElem? hf2 k).2 p hk
    cases hq : paramIdx parms t with
    | error e' => rw [hq] at e; cases e
    | ok i =>
      rw [hq] at e
      cases e
      exact ⟨List.mem_of_getElem? ht, hq⟩
  constructor
  · intro t ht col hcol hfirst side
    obtain ⟨k, hk⟩ := List.mem_iff_getElem?.1 ht
    obtain ⟨p, hp, e⟩ := (Impacts.forall₂_getElem? hf2 k).1 t hk
    have hpm := List.mem_of_getElem? hp
    have hp1 : p.1 = t := by
      cases hq : paramIdx parms t with
      | error e' => rw [hq] at e; cases e
      | ok i => rw [hq] at e; cases e; rfl
    have hpi := hidx _ _ (hin p hpm).2
    rw [hp1] at hpi
    have hcolp : p.2 = col := by
      obtain ⟨hl1, hg1⟩ := List.getElem?_eq_some_iff.1 hpi.1
      obtain ⟨hl2, hg2⟩ := List.getElem?_eq_some_iff.1 hcol
      rcases Nat.lt_trichotomy p.2 col with hlt | heq | hgt
      · exact absurd (List.mem_iff_getElem.2 ⟨p.2, by rw [List.length_take]; omega, by rw [List.getElem_take]; exact hg1⟩) hfirst
      · exact heq
      · exact absurd (List.mem_iff_getElem.2 ⟨col, by rw [List.length_take]; omega, by rw [List.getElem_take]; exact hg2⟩) hpi.2
    unfold tabulate
    cases hfd : cols.find? fun p => p.2 == col with
    | none =>
      have := List.find?_eq_none.1 hfd p hpm
      simp [hcolp] at this
    | some q =>
      have h1 := List.find?_some hfd
      have hq2 : q.2 = col := by simpa using h1
      have hqi := hidx _ _ (hin q (List.mem_of_find?_eq_some hfd)).2
      rw [hq2, hcol, Option.some_inj] at hqi
      show f q.1 side = _
      rw [hqi.1]
  · intro col hcol side
    unfold tabulate
    cases hfd : cols.find? fun p => p.2 == col with
    | none => rfl
    | some q =>
      have h1 := List.find?_some hfd
      have hq2 : q.2 = col := by simpa using h1
      have hq := hin q (List.mem_of_find?_eq_some hfd)
      have := hidx _ _ hq.2
      rw [hq2] at this
      exact absurd this.1 (hcol _ hq.1)

/-- C92.  Grouped impacts that are returned: the state is kept, there is a table for each group, for "stat" and for "Total"; in the column of a
target "Total" is its interval, "stat" its interval with all constrained nuisances frozen, and the impact of a group the difference in
quadrature between its interval and that with the members of the group frozen, with the sign of the side (not a number if a scan failed, or
if the target itself is frozen).  Other columns are not numbers.  Missing: names of nuisances that are regular expressions for
others (`c41_grouped_violated`). -/
theorem c92_groups_partial (rx : Regex) (opt : Nat → Vec ℝ → Contour ℝ) (obs : Option (Vec ℝ → ℝ)) (dx : Nat → List Nat → Vec ℝ)
    (targets systs : List String) (groups : List (String × List Nat)) (constrained : Nat → Bool) (s s' : Sess ℝ) (names : List String)
    (tables : List (Nat → Nat → Option ℝ)) (hup : updateFrozen s.fr = s.fr) (hplain : ∀ m ∈ systs, Scans.Spec.plain rx m)
    (h : groupedAsym rx (fun c t s => contourScan opt obs dx t [-1, 1] c s) targets systs groups constrained s = (s', .ok (names, tables))) :
    s' = s ∧ names = groups.map (·.1) ++ ["stat", "Total"] ∧ tables.length = groups.length + 2 ∧
      (∀ t ∈ targets, ∀ col, s.fr.parms[col]? = some t → t ∉ s.fr.parms.take col → ∀ side, ∃ total : Option ℝ,
        Spec.End (fun c t s => contourScan opt obs dx t [-1, 1] c s) s (fun _ => False) t side total ∧
        (tables[groups.length + 1]?).bind (fun f => f side col) = total ∧
        Spec.FrozenEnd (fun c t s => contourScan opt obs dx t [-1, 1] c s) s (fun n => ∃ i : Nat, constrained i = true ∧ systs[i]? = some n) t side
          ((tables[groups.length]?).bind fun f => f side col) ∧
        ∀ (k : Nat) (g : String × List Nat), groups[k]? = some g → ∃ v : Option ℝ,
          Spec.FrozenEnd (fun c t s => contourScan opt obs dx t [-1, 1] c s) s (fun n => ∃ i ∈ g.2, systs[i]? = some n) t side v ∧
          ((total = none ∨ v = none) → (tables[k]?).bind (fun f => f side col) = none) ∧
          ∀ a b, total = some a → v = some b → (tables[k]?).bind (fun f => f side col) =
            some ((if side = 0 then -1 else 1) * Real.sqrt (max (a ^ 2 - b ^ 2) 0))) ∧
      ∀ col, (∀ t ∈ targets, s.fr.parms[col]? ≠ some t) → ∀ f ∈ tables, ∀ side, f side col = none := by
  have hscan : ∀ c t (s : Sess ℝ), KeepsSess s (contourScan opt obs dx t [-1, 1] c s) :=
    fun c t s => contourScan_keeps opt obs dx t [-1, 1] c s
  unfold groupedAsym at h
  split at h
  · cases (Prod.mk.inj h).2
  · rename_i cols hcols
    split at h
    · cases (Prod.mk.inj h).2
    · rename_i members hmembers
      dsimp only at h
      generalize hstat : ((List.range systs.length).filterMap fun i => if constrained i then some (systs.getD i "") else none) = stat at h
      have hstatm : ∀ n, n ∈ stat ↔ ∃ i : Nat, constrained i = true ∧ systs[i]? = some n := by
        intro n
        rw [← hstat]
        simp only [List.mem_filterMap, List.mem_range, Option.ite_none_right_eq_some, Option.some_inj]
        constructor
        · rintro ⟨i, hi, hc, rfl⟩
          refine ⟨i, hc, ?_⟩
          rw [List.getD_eq_getElem?_getD, List.getElem?_eq_getElem hi]; rfl
        · rintro ⟨i, hc, hs⟩
          refine ⟨i, (List.getElem?_eq_some_iff.1 hs).1, hc, ?_⟩
          rw [List.getD_eq_getElem?_getD, hs]; rfl
      have hmf := Impacts.mapM_ok hmembers
      have hmem : ∀ (k : Nat) (g : String × List Nat), groups[k]? = some g → ∃ ms : List String, members[k]? = some ms ∧
          ∀ n, n ∈ ms ↔ ∃ i ∈ g.2, systs[i]? = some n := by
        intro k g hk
        obtain ⟨ms, h1, h2⟩ := (Impacts.forall₂_getElem? hmf k).1 g hk
        refine ⟨ms, h1, fun n => ?_⟩
        have h3 := Impacts.mapM_ok h2
        have hone : ∀ (i : Nat) (n : String), ((match systs[i]? with | some n => .ok n | none => .error .index : Res String) = .ok n) ↔ systs[i]? = some n := by
          intro i n
          cases systs[i]? with
          | none => exact ⟨nofun, nofun⟩
          | some m => exact ⟨fun h => by cases h; rfl, fun h => by cases h; rfl⟩
        constructor
        · intro hn
          obtain ⟨j, hj⟩ := List.mem_iff_getElem?.1 hn
          obtain ⟨i, hi, e⟩ := (Impacts.forall₂_getElem? h3 j).2 n hj
          exact ⟨i, List.mem_of_getElem? hi, (hone i n).1 e⟩
        · rintro ⟨i, hi, e⟩
          obtain ⟨j, hj⟩ := List.mem_iff_getElem?.1 hi
          obtain ⟨n', hn', e'⟩ := (Impacts.forall₂_getElem? h3 j).1 i hj
          have := (hone i n').1 e'
          rw [e, Option.some_inj] at this
          exact this ▸ List.mem_of_getElem? hn'
      have hpl : ∀ g ∈ members ++ [stat], ∀ m ∈ g, Scans.Spec.plain rx m := by
        intro g hg m hm
        rcases List.mem_append.1 hg with hg | hg
        · obtain ⟨k, hk⟩ := List.mem_iff_getElem?.1 hg
          obtain ⟨g', hg', -⟩ := (Impacts.forall₂_getElem? hmf k).2 g hk
          obtain ⟨ms, h1, h2⟩ := hmem k g' hg'
          rw [hk, Option.some_inj] at h1
          subst h1
          obtain ⟨i, -, hi⟩ := (h2 m).1 hm
          exact hplain m (List.mem_of_getElem? hi)
        · rw [List.mem_singleton] at hg
          subst hg
          obtain ⟨i, -, hi⟩ := (hstatm m).1 hm
          exact hplain m (List.mem_of_getElem? hi)
      split at h
      · cases (Prod.mk.inj h).2
      · rename_i s2 totals rs hgs
        obtain ⟨e1, e2⟩ := Prod.mk.inj h
        cases e2
        subst e1
        have hs2 : s2 = s := by
          have := c41_grouped_partial rx opt obs dx [-1, 1] targets (members ++ [stat]) s hup hpl
          rw [hgs] at this
          exact this.2.2 _ rfl
        unfold groupedScans at hgs
        split at hgs
        · cases (Prod.mk.inj hgs).2
        · rename_i s1 totals' ht
          obtain ⟨t1, t2, -⟩ := scanTargets_get _ hscan _ _ _ _ _ ht
          subst t1
          split at hgs
          · cases (Prod.mk.inj hgs).2
          · rename_i s3 gs hsg
            obtain ⟨-, e3⟩ := Prod.mk.inj hgs
            cases e3
            have hF := scanGroups_get rx _ hscan targets _ _ s1 s3 hup hpl rs hsg
            obtain ⟨rs', stat', hrs⟩ : ∃ rs' st, rs = rs' ++ [st] := by
              have : rs ≠ [] := by
                intro h0
                rw [h0] at hF
                have := hF.length_eq
                simp at this
              exact ⟨rs.dropLast, rs.getLast this, (List.dropLast_append_getLast this).symm⟩
            subst hrs
            have hlen : rs'.length = groups.length := by
              have h1 := hF.length_eq
              have h2 := hmf.length_eq
              simp only [List.length_append, List.length_singleton] at h1
              omega
            have hml : members.length = groups.length := hmf.length_eq.symm
            rw [groupTables_get]
            refine ⟨hs2, rfl, by simp [hlen], fun t htm col hcol hfirst side => ?_, fun col hcol f hf side => ?_⟩
            · obtain ⟨c', r, hr, hv⟩ := t2 t htm
              have htab := fun f => (tabulate_get hcols f).1 t htm col hcol hfirst side
              refine ⟨interval totals t side, ⟨c', s1, r, ⟨rfl, rfl, rfl, hup, fun n _ => by simp⟩, hr, hv side⟩, ?_, ?_, ?_⟩
              · rw [List.getElem?_append_right (by simp [hlen])]
                simp only [List.length_map, hlen, Nat.add_sub_cancel_left, List.getElem?_cons_succ, List.getElem?_cons_zero, Option.bind_some]
                exact htab _
              · rw [List.getElem?_append_right (by simp [hlen])]
                simp only [List.length_map, hlen, Nat.sub_self, List.getElem?_cons_zero, Option.bind_some]
                rw [htab]
                obtain ⟨st, hst, hfe⟩ := (Impacts.forall₂_getElem? hF groups.length).2 stat' (by rw [← hlen]; simp)
                rw [← hml, List.getElem?_concat_length, Option.some_inj] at hst
                subst hst
                have := hfe t htm side
                rw [show (fun n => ∃ i : Nat, constrained i = true ∧ systs[i]? = some n) = (· ∈ stat) from funext fun n => propext (hstatm n).symm]
                exact this
              · intro k g hk
                obtain ⟨ms, hms, hmm⟩ := hmem k g hk
                have hkl : k < groups.length := (List.getElem?_eq_some_iff.1 hk).1
                obtain ⟨r, hr, hfe⟩ := (Impacts.forall₂_getElem? hF k).1 ms (by rw [List.getElem?_append_left (by omega)]; exact hms)
                rw [List.getElem?_append_left (by omega)] at hr
                refine ⟨interval r t side, ?_, ?_, ?_⟩
                · rw [show (fun n => ∃ i ∈ g.2, systs[i]? = some n) = (· ∈ ms) from funext fun n => propext (hmm n).symm]
                  exact hfe t htm side
                · intro hn
                  rw [List.getElem?_append_left (by rw [List.length_map]; omega), List.getElem?_map, hr]
                  simp only [Option.map_some, Option.bind_some]
                  rw [htab]
                  rcases hn with hn | hn <;> rw [hn]
                  · rfl
                  · cases interval totals t side <;> rfl
                · intro a b ha hb
                  rw [List.getElem?_append_left (by rw [List.length_map]; omega), List.getElem?_map, hr]
                  simp only [Option.map_some, Option.bind_some]
                  rw [htab, ha, hb]
                  unfold quadSide
                  by_cases h0 : side = 0
                  · simp [h0]
                  · simp [h0]
            · have htab := fun g => (tabulate_get hcols g).2 col hcol side
              rcases List.mem_append.1 hf with hf | hf
              · obtain ⟨r, -, rfl⟩ := List.mem_map.1 hf
                exact htab _
              · simp only [List.mem_cons, List.not_mem_nil, or_false] at hf
                rcases hf with rfl | rfl <;> exact htab _

/-! ### Agreement with the impacts from the covariance -/

section
open Verif.Cov Verif.Impacts Matrix

variable {n : ℕ}

/-- the sum over a list of different positions as a sum over all -/
theorem sum_list (l : List (Fin n)) (hl : l.Nodup) (f : Fin n → ℝ) : ∑ a : Fin l.length, f (l.get a) = ∑ k, if k ∈ l then f k else 0 := by
  rw [Finset.sum_ite, Finset.sum_const_zero, add_zero]
  have : (Finset.univ.filter fun k => k ∈ l) = Finset.univ.map ⟨l.get, List.nodup_iff_injective_get.1 hl⟩ := by
    ext k
    simp only [Finset.mem_filter, Finset.mem_univ, true_and, Finset.mem_map, Function.Embedding.coeFn_mk]
    rw [List.mem_iff_get]
  rw [this, Finset.sum_map]
  rfl

/-- a vector on the positions of `l` as one on all positions -/
theorem exists_ext (l : List (Fin n)) (hl : l.Nodup) (y : Cov.Vec l.length) : ∃ z : Cov.Vec n, (∀ i, i ∉ l → z i = 0) ∧ ∀ a, z (l.get a) = y a := by
  refine ⟨fun i => if h : ∃ a, l.get a = i then y h.choose else 0, fun i hi => dif_neg fun ⟨a, ha⟩ => hi (ha ▸ List.get_mem l a), fun a => ?_⟩
  have hex : ∃ b, l.get b = l.get a := ⟨a, rfl⟩
  show (if h : ∃ b, l.get b = l.get a then y h.choose else 0) = y a
  rw [dif_pos hex]
  congr 1
  exact List.nodup_iff_injective_get.1 hl hex.choose_spec

/-- a vector without frozen components that the floating block of the Hessian maps to zero on those components is zero -/
theorem zero_of_ker {F : Fin n → Prop} {H : Mat n} (hpos : Cov.Spec.posOnFloating (fun i => ¬ F i) H) (e : Cov.Vec n)
    (h0 : ∀ i, ¬ F i → e i = 0) (hk : ∀ j, F j → ∑ k, e k * H k j = 0) : e = 0 := by
  by_contra hne
  have := hpos e h0 hne
  rw [Finset.sum_comm] at this
  have h2 : ∑ j, ∑ i, e i * H i j * e j = 0 := by
    refine Finset.sum_eq_zero fun j _ => ?_
    rw [← Finset.sum_mul]
    by_cases hj : F j
    · rw [hk j hj, zero_mul]
    · rw [h0 j hj, mul_zero]
  exact absurd h2 (ne_of_gt this)

/-- The variance of a parameter decreases by the impact of a group when the group is frozen. -/
theorem schur {F : Fin n → Prop} [DecidablePred F] {H C C' : Mat n} (hpos : Cov.Spec.posOnFloating (fun i => ¬ F i) H) (l : List (Fin n))
    (hl : l.Nodup) (hlF : ∀ j ∈ l, F j)
    (hC : ∀ i j, F i → F j → (∑ k, if F k then C i k * H k j else 0) = if i = j then 1 else 0) (hCs : ∀ i j, F i → F j → C i j = C j i)
    (hC' : ∀ i j, F i → i ∉ l → F j → j ∉ l → (∑ k, if F k ∧ k ∉ l then C' i k * H k j else 0) = if i = j then 1 else 0)
    (i : Fin n) (hi : F i) (hil : i ∉ l) : (gatherM l C).det ≠ 0 ∧ C' i i = C i i - groupSq C (fun j => C i j) l := by
  have hdet : (gatherM l C).det ≠ 0 := by
    intro h0
    obtain ⟨v, hv, hv0⟩ := Matrix.exists_mulVec_eq_zero_iff.2 h0
    obtain ⟨z, hz, hzv⟩ := exists_ext l hl v
    -- `w = C z` on the floating positions
    set w : Cov.Vec n := fun j => if F j then ∑ k, z k * C k j else 0 with hw
    have hwH : ∀ j, F j → ∑ k, w k * H k j = z j := by
      intro j hj
      have : ∀ k, w k * H k j = ∑ m, z m * (if F k then C m k * H k j else 0) := by
        intro k
        simp only [hw]
        by_cases hk : F k
        · simp only [hk, if_true, Finset.sum_mul, mul_assoc]
        · simp [hk]
      simp only [this]
      rw [Finset.sum_comm]
      simp only [← Finset.mul_sum]
      rw [Finset.sum_eq_single j]
      · rw [hC j j hj hj, if_pos rfl, mul_one]
      · intro m _ hm
        by_cases hml : m ∈ l
        · rw [hC m j (hlF m hml) hj, if_neg hm, mul_zero]
        · rw [hz m hml, zero_mul]
      · simp
    have hwl : ∀ a, w (l.get a) = 0 := by
      intro a
      have hF : F (l.get a) := hlF _ (List.get_mem l a)
      have h1 : ∑ k, z k * C k (l.get a) = ∑ k, if k ∈ l then z k * C k (l.get a) else 0 :=
        Finset.sum_congr rfl fun k _ => by
          by_cases hk : k ∈ l
          · rw [if_pos hk]
          · rw [if_neg hk, hz k hk, zero_mul]
      simp only [hw, hF, if_true]
      rw [h1, ← sum_list l hl fun k => z k * C k (l.get a)]
      have h2 := congrFun hv0 a
      simp only [mulVec, dotProduct, Pi.zero_apply] at h2
      rw [← h2]
      refine Finset.sum_congr rfl fun b _ => ?_
      rw [hzv b, hCs _ _ (hlF _ (List.get_mem l b)) hF, mul_comm]
      rfl
    have hw0 : w = 0 := by
      by_contra hne
      have h1 := hpos w (fun j hj => by simp only [hw, if_neg hj]) hne
      rw [Finset.sum_comm] at h1
      have h2 : ∑ j, ∑ k, w k * H k j * w j = 0 := by
        refine Finset.sum_eq_zero fun j _ => ?_
        rw [← Finset.sum_mul]
        by_cases hj : F j
        · rw [hwH j hj]
          by_cases hjl : j ∈ l
          · obtain ⟨a, rfl⟩ := List.mem_iff_get.1 hjl
            rw [hwl a, mul_zero]
          · rw [hz j hjl, zero_mul]
        · simp only [hw, if_neg hj, mul_zero]
      exact absurd h2 (ne_of_gt h1)
    apply hv
    funext a
    have := hwH (l.get a) (hlF _ (List.get_mem l a))
    rw [hw0] at this
    rw [← hzv a, ← this]
    simp
  refine ⟨hdet, ?_⟩
  set y := (gatherM l C)⁻¹.mulVec (gatherV l fun j => C i j) with hy
  have hGy : (gatherM l C).mulVec y = gatherV l fun j => C i j := by
    rw [hy, mulVec_mulVec, Matrix.mul_nonsing_inv _ (isUnit_iff_ne_zero.2 hdet), one_mulVec]
  obtain ⟨z, hz, hzy⟩ := exists_ext l hl y
  have hzsum : ∀ j, ∑ k, z k * C k j = ∑ a : Fin l.length, y a * C (l.get a) j := by
    intro j
    have h1 : ∑ k, z k * C k j = ∑ k, if k ∈ l then z k * C k j else 0 :=
      Finset.sum_congr rfl fun k _ => by
        by_cases hk : k ∈ l
        · rw [if_pos hk]
        · rw [if_neg hk, hz k hk, zero_mul]
    rw [h1, ← sum_list l hl fun k => z k * C k j]
    exact Finset.sum_congr rfl fun a _ => by rw [hzy a]
  -- the row of the covariance with the group projected out
  set d : Cov.Vec n := fun j => if F j then C i j - ∑ k, z k * C k j else 0 with hd
  have hdl : ∀ j ∈ l, d j = 0 := by
    intro j hj
    obtain ⟨a, rfl⟩ := List.mem_iff_get.1 hj
    have hF := hlF _ hj
    simp only [hd, hF, if_true]
    rw [hzsum]
    have := congrFun hGy a
    simp only [mulVec, dotProduct] at this
    have h2 : ∑ b : Fin l.length, y b * C (l.get b) (l.get a) = C i (l.get a) := by
      refine Eq.trans (Finset.sum_congr rfl fun b _ => ?_) this
      rw [hCs _ _ (hlF _ (List.get_mem l b)) hF, mul_comm]
      rfl
    rw [h2, sub_self]
  have hdH : ∀ j, F j → j ∉ l → ∑ k, d k * H k j = if i = j then 1 else 0 := by
    intro j hj hjl
    have : ∀ k, d k * H k j = (if F k then C i k * H k j else 0) - ∑ m, z m * (if F k then C m k * H k j else 0) := by
      intro k
      simp only [hd]
      by_cases hk : F k
      · simp only [hk, if_true, sub_mul, Finset.sum_mul, mul_assoc]
      · simp [hk]
    simp only [this]
    rw [Finset.sum_sub_distrib, hC i j hi hj, Finset.sum_comm]
    simp only [← Finset.mul_sum]
    rw [Finset.sum_eq_zero, sub_zero]
    intro m _
    by_cases hml : m ∈ l
    · rw [hC m j (hlF m hml) hj, if_neg (fun h : m = j => hjl (h ▸ hml)), mul_zero]
    · rw [hz m hml, zero_mul]
  have hpos' : Cov.Spec.posOnFloating (fun i => ¬ (F i ∧ i ∉ l)) H := fun e he hne =>
    hpos e (fun k hk => he k fun h => hk h.1) hne
  have hdiff := zero_of_ker hpos' (fun k => (if F k ∧ k ∉ l then C' i k else 0) - d k) (fun k hk => by
      rw [if_neg hk]
      by_cases hkF : F k
      · have hkl : k ∈ l := by
          by_contra h
          exact hk ⟨hkF, h⟩
        rw [hdl k hkl, sub_zero]
      · simp only [hd, if_neg hkF, sub_zero]) (fun j hj => by
      simp only [sub_mul, Finset.sum_sub_distrib]
      rw [hdH j hj.1 hj.2, ← hC' i j hi hil hj.1 hj.2, sub_eq_zero]
      exact Finset.sum_congr rfl fun k _ => by split <;> simp)
  have := congrFun hdiff i
  simp only [Pi.zero_apply] at this
  rw [if_pos ⟨hi, hil⟩, sub_eq_zero] at this
  rw [this]
  simp only [hd, hi, if_true]
  congr 1
  rw [hzsum, groupSq, ← hy, dotProduct]
  refine Finset.sum_congr rfl fun a _ => ?_
  rw [mul_comm, hCs _ _ (hlF _ (List.get_mem l a)) hi]
  rfl

/-- C92.  For a quadratic likelihood, the impact of a group from freezing it is the grouped impact computed from the covariance, times the number of standard
deviations of the contour: down negative, up positive.  The intervals are those of `c90_gaussian`. -/
theorem c92_gaussian (parms : Fin n → String) (frozen group : List String) (prev H : Mat n) (grad : Cov.Vec n) (hs : H.IsSymm)
    (hpos : Cov.Spec.posOnFloating (fun i => parms i ∈ frozen) H) (l : List (Fin n)) (hl : l.Nodup)
    (hmem : ∀ j, j ∈ l ↔ parms j ∈ group ∧ parms j ∉ frozen) (cl : ℝ) (hcl : 0 ≤ cl) :
    ∃ edm cov edm' cov', fitterEdmvalCov parms frozen prev grad H = .ok (edm, cov) ∧
      fitterEdmvalCov parms (frozen ++ group) prev grad H = .ok (edm', cov') ∧
      ∀ i, parms i ∉ frozen → parms i ∉ group → ∃ m, groupColumn cov [fun j => cov i j] l = .ok [m] ∧
        quadSide true (some (-(cl * Real.sqrt (cov i i)))) (some (-(cl * Real.sqrt (cov' i i)))) = some (-(cl * m)) ∧
        quadSide false (some (cl * Real.sqrt (cov i i))) (some (cl * Real.sqrt (cov' i i))) = some (cl * m) := by
  have hpos' : Cov.Spec.posOnFloating (fun i => parms i ∈ frozen ++ group) H := fun z hz hne =>
    hpos z (fun i hi => hz i (List.mem_append_left _ hi)) hne
  obtain ⟨edm, cov, h1, hC, hCs, -, -, -⟩ := c35_covariance_partial parms frozen prev grad H hs hpos
  obtain ⟨edm', cov', h2, hC', hCs', -, -, -⟩ := c35_covariance_partial parms (frozen ++ group) prev grad H hs hpos'
  refine ⟨edm, cov, edm', cov', h1, h2, fun i hi hig => ?_⟩
  have hil : i ∉ l := fun h => hig ((hmem i).1 h).1
  have hF : ∀ k, (parms k ∉ frozen ++ group) ↔ (parms k ∉ frozen ∧ k ∉ l) := by
    intro k
    rw [List.mem_append, hmem k]
    by_cases h : parms k ∈ frozen <;> simp [h]
  obtain ⟨hdet, hvar⟩ := schur (F := fun i => parms i ∉ frozen) (C := cov) (C' := cov')
    (by simpa only [not_not] using hpos) l hl (fun j hj => ((hmem j).1 hj).2)
    hC
    hCs
    (fun a b ha hal hb hbl => by
      rw [← hC' a b ((hF a).2 ⟨ha, hal⟩) ((hF b).2 ⟨hb, hbl⟩)]
      exact Finset.sum_congr rfl fun k _ => if_congr (hF k).symm rfl rfl)
    i hi hil
  -- variances are not negative: they are values of the quadratic form of the Hessian
  have hnn : ∀ (fz : List String) (c : Mat n), Cov.Spec.posOnFloating (fun i => parms i ∈ fz) H → parms i ∉ fz →
      (∀ a b, parms a ∉ fz → parms b ∉ fz → (∑ k, if parms k ∉ fz then c a k * H k b else 0) = if a = b then 1 else 0) → 0 ≤ c i i := by
    intro fz c hp hfi hc
    set e : Cov.Vec n := fun k => if parms k ∉ fz then c i k else 0 with he
    have hq : ∑ a, ∑ b, e a * H a b * e b = c i i := by
      rw [Finset.sum_comm]
      have : ∀ b, ∑ a, e a * H a b * e b = if b = i then c i i else 0 := by
        intro b
        rw [← Finset.sum_mul]
        by_cases hb : parms b ∉ fz
        · have h3 : ∑ a, e a * H a b = if i = b then 1 else 0 := by
            rw [← hc i b hfi hb]
            exact Finset.sum_congr rfl fun k _ => by simp only [he]; split <;> simp
          rw [h3]
          by_cases hbi : b = i
          · subst hbi
            simp [he, hb]
          · rw [if_neg fun h => hbi h.symm, if_neg hbi, zero_mul]
        · have hbi : b ≠ i := fun h => hb (h ▸ hfi)
          simp only [he, if_neg hb, mul_zero, if_neg hbi]
      simp only [this]
      simp
    rw [← hq]
    by_cases he0 : e = 0
    · rw [he0]; simp
    · exact le_of_lt (hp e (fun k hk => by simp only [he]; rw [if_neg]; simpa using hk) he0)
  have n1 := hnn frozen cov hpos hi hC
  have n2 := hnn (frozen ++ group) cov' hpos' ((hF i).2 ⟨hi, hil⟩) hC'
  refine ⟨Real.sqrt (groupSq cov (fun j => cov i j) l), ?_, ?_, ?_⟩
  · unfold groupColumn
    rw [if_neg hdet]
    rfl
  all_goals
    unfold quadSide
    simp only [if_true, Bool.false_eq_true, if_false, neg_sq, mul_pow, Real.sq_sqrt n1, Real.sq_sqrt n2]
    rw [show cl ^ 2 * cov i i - cl ^ 2 * cov' i i = cl ^ 2 * groupSq cov (fun j => cov i j) l by rw [hvar]; ring]
    have hg : Real.sqrt (max (cl ^ 2 * groupSq cov (fun j => cov i j) l) 0) = cl * Real.sqrt (groupSq cov (fun j => cov i j) l) := by
      by_cases h0 : 0 ≤ groupSq cov (fun j => cov i j) l
      · rw [max_eq_left (mul_nonneg (sq_nonneg _) h0), Real.sqrt_mul (sq_nonneg _), Real.sqrt_sq hcl]
      · rw [max_eq_right (mul_nonpos_of_nonneg_of_nonpos (sq_nonneg _) (le_of_not_ge h0)), Real.sqrt_zero, Real.sqrt_eq_zero_of_nonpos (le_of_not_ge h0), mul_zero]
    rw [hg]

end

end

/-! ### cases meeting the hypotheses -/

namespace Ex92

/-- two nuisances in two bins, the second one asymmetric in the second bin -/
def entries : List ((Nat × Nat) × ℚ) := [((0, 0), 1), ((1, 1), 2), ((1, 3), -1), ((0, 2), 0)]

def dense (b _p k i : Nat) : ℚ := if b = 1 ∧ k = 1 ∧ i = 1 then -1 else 0

example : mask 2 (.sparse entries) 0 = .ok [false, true] := by decide +kernel

example : ∃ m : List Bool, mask 2 (.sparse entries) 0 = .ok m ∧ m.length = 2 ∧
    ∀ i < 2, m[i]? = some true ↔ Spec.Asymmetric 2 0 i (.sparse entries) :=
  c92_mask 2 (.sparse entries) 0 le_rfl (by rintro _ ⟨⟩; exact ⟨by decide +kernel, by decide +kernel⟩)

theorem at_zero (row i : Nat) (h : ¬ (row = 1 ∧ i = 1)) (hi : i < 2) : Spec.at entries row (2 + i) = 0 := by
  unfold Spec.at
  cases hf : entries.find? fun e => e.1 == (row, 2 + i) with
  | none => rfl
  | some e =>
    have h1 : e.1 = (row, 2 + i) := by simpa using List.find?_some hf
    have h2 := List.mem_of_find?_eq_some hf
    simp only [entries, List.mem_cons, List.not_mem_nil, or_false] at h2
    rcases h2 with rfl | rfl | rfl | rfl <;> simp only [Prod.mk.injEq] at h1
    · omega
    · omega
    · exact absurd ⟨h1.1.symm, by omega⟩ h
    · rfl

example : mask 2 (.sparse entries) 0 = mask 2 (.dense 2 1 dense) 0 :=
  c92_layouts 2 2 1 entries dense 0 le_rfl (by decide +kernel) (by decide +kernel)
    (fun i hi b hb p hp h => by
      unfold dense at h
      split at h
      · rename_i hc
        obtain ⟨rfl, -, rfl⟩ := hc
        obtain rfl : p = 0 := by omega
        exact ⟨1, by decide +kernel⟩
      · exact absurd rfl h)
    (fun i hi row h => by
      by_cases hc : row = 1 ∧ i = 1
      · obtain ⟨rfl, rfl⟩ := hc
        exact ⟨1, by decide, 0, by decide, by decide +kernel⟩
      · exact absurd (at_zero row i hc hi) h)

def rx : Regex := fun e => if e = "(" then none else some fun n => n == e

theorem rx_plain (e : String) : Scans.Spec.plain rx e := by
  rintro name (rfl | ⟨f, hf, hn⟩)
  · rfl
  · unfold rx at hf
    split_ifs at hf with h1
    cases hf
    simpa using hn

/-- only asymmetric ones: the second nuisance; all but the second: the first -/
example : selectSysts rx true (.sparse entries) none none ["a", "b"] = .ok [(1, "b")] ∧
    selectSysts rx false (.sparse entries) (some ["a", "b"]) (some ["b"]) ["a", "b"] = .ok [(0, "a")] := by decide +kernel

example : (1, "b") ∈ [(1, "b")] ↔ ["a", "b"][1]? = some "b" ∧ (true = true → Spec.Asymmetric 2 0 1 (.sparse entries)) ∧
    (∀ es, (none : Option (List String)) = some es → ∃ e ∈ es, Spec.Selects rx e "b") ∧
      ∀ es, (none : Option (List String)) = some es → ¬ ∃ e ∈ es, Spec.Selects rx e "b" :=
  (c92_selected rx true (.sparse entries) none none ["a", "b"] [(1, "b")] (by decide +kernel)
    (by rintro _ ⟨⟩; exact ⟨by decide +kernel, by decide +kernel⟩)).2 1 "b"

/-- best fit at zero of a parameter of interest and two nuisances -/
def sess : Sess ℝ := ⟨fun _ => 0, fun _ => 0, runFreeze rx (FreezeState.init ["mu", "a", "b"]) []⟩

/-- the total interval is [-5, 5], each frozen one [-4, 4]; the seventh scan fails -/
def opt : Nat → Scans.Vec ℝ → Contour ℝ := fun n _ =>
  if n = 7 then .failure fun _ => 9 else .success (fun _ => 9) fun _ => (if n % 2 = 0 then -1 else 1) * if n < 2 then 5 else 4

example : ∃ s' rows, asymRows (fun c n s => contourScan opt none (fun _ _ _ => 0) n [-1, 1] c s) 0 ["a", "b"] sess = (s', .ok rows) ∧
    s' = sess ∧ rows.length = 2 := by
  refine ⟨_, _, rfl, ?_⟩
  obtain ⟨h1, h2, -⟩ := c92_rows opt none (fun _ _ _ => 0) 0 ["a", "b"] sess _ _ rfl
  exact ⟨h1, h2⟩

/-- groups of the first and of the second nuisance; one of the scans fails -/
example : ∃ s' names tables, groupedAsym rx (fun c t s => contourScan opt none (fun _ _ _ => 0) t [-1, 1] c s) ["mu"] ["a", "b"]
      [("one", [0]), ("two", [1])] (fun _ => true) sess = (s', .ok (names, tables)) ∧ s' = sess ∧ names = ["one", "two", "stat", "Total"] ∧
    tables.length = 4 := by
  have hok : (groupedAsym rx (fun c t s => contourScan opt none (fun _ _ _ => 0) t [-1, 1] c s) ["mu"] ["a", "b"]
      [("one", [0]), ("two", [1])] (fun _ => true) sess).2.isOk = true := by decide +kernel
  generalize hp : groupedAsym rx (fun c t s => contourScan opt none (fun _ _ _ => 0) t [-1, 1] c s) ["mu"] ["a", "b"]
      [("one", [0]), ("two", [1])] (fun _ => true) sess = p at hok
  obtain ⟨s', r⟩ := p
  cases r with
  | error e => cases hok
  | ok r =>
    obtain ⟨names, tables⟩ := r
    obtain ⟨h1, h2, h3, -⟩ := c92_groups_partial rx opt none (fun _ _ _ => 0) ["mu"] ["a", "b"] [("one", [0]), ("two", [1])] (fun _ => true) sess
      s' names tables (by decide +kernel) (fun m _ => rx_plain m) hp
    exact ⟨s', names, tables, rfl, h1, h2, h3⟩

/-- freezing the second of two correlated parameters -/
example : ∃ edm cov edm' cov', Cov.fitterEdmvalCov Verif.Cov.Ex.parms [] 0 0 Verif.Cov.Ex.H = .ok (edm, cov) ∧
    Cov.fitterEdmvalCov Verif.Cov.Ex.parms ["theta"] 0 0 Verif.Cov.Ex.H = .ok (edm', cov') ∧ ∃ m, Impacts.groupColumn cov [fun j => cov 0 j] [1] = .ok [m] := by
  obtain ⟨edm, cov, edm', cov', h1, h2, h3⟩ := c92_gaussian Verif.Cov.Ex.parms [] ["theta"] 0 Verif.Cov.Ex.H 0 Verif.Cov.Ex.H_symm
    (Verif.Cov.Ex.H_pos _) [1] (by simp) (by intro j; fin_cases j <;> simp [Verif.Cov.Ex.parms]) 1 zero_le_one
  obtain ⟨m, hm, -⟩ := h3 0 (by simp) (by simp [Verif.Cov.Ex.parms])
  exact ⟨edm, cov, edm', cov', h1, h2, m, hm⟩

end Ex92

end Verif.AsymTable
