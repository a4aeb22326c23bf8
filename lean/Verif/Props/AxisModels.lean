import Verif.Model.AxisModels
import Verif.Props.SmoothABCD
import Verif.Lemmas.Grid
import Verif.Lemmas.Py

/-! C49: normalisation, exponential and Bernstein models per cell of histogram axes. -/

namespace Verif.AxisModels

open Verif.ParamModels Verif.Grid Verif.ABCD Verif.SmoothABCD

namespace Spec

/-- the axes of a channel with a requested name, in the order of the channel -/
def kept {V : Type} (axes : List (Axis V)) (names : List String) : List (Axis V) := axes.filter fun a => a.name ∈ names

/-- the bin numbers along the requested axes, in the order of the channel -/
def coords {V : Type} (axes : List (Axis V)) (names : List String) (idx : List Nat) : List Nat :=
  ((axes.zip idx).filter fun a => a.1.name ∈ names).map (·.2)

/-- row-major number of the cell of a bin -/
def cell {V : Type} (axes : List (Axis V)) (names : List String) (idx : List Nat) : Nat :=
  ravel ((kept axes names).map (·.size)) (coords axes names idx)

/-- number of bins of a list of channels -/
def offset (chans : List (String × Chan ℝ)) : Nat := (chans.map fun e => (e.2.axes.map (·.size)).prod).sum

/-- channels that take part: all of them, or those that are not masked -/
def active (inp : InData ℝ) (full : Bool) : List (String × Chan ℝ) :=
  inp.chans.filter fun e => full || !e.2.masked

/-- selected processes in the order of the request -/
def chosen (inp : InData ℝ) (ps : Option (List String)) : List String := ps.getD inp.procs

/-- the text of a cell: axis name and bin number of every axis -/
def label {V : Type} (axes : List (Axis V)) (idx : List Nat) : String :=
  "_".intercalate (List.zipWith (fun a i => a.name ++ toString i) axes idx)

end Spec

/-! ### helper facts -/

theorem activeChans_eq (inp : InData ℝ) (full : Bool) : activeChans inp full = Spec.active inp full := by
  unfold activeChans Spec.active
  congr 1; funext e
  cases e.2.masked <;> cases full <;> rfl

theorem spread_spec {shape full : List Nat} {l u : List ℝ} (h : spread shape full l = .ok u) :
    l.length = shape.prod ∧ u.length = full.prod ∧
    ∀ idx ∈ grid full, u[ravel full idx]? = some (l.getD (ravel shape (clampIdx shape idx)) 0) := by
  unfold spread ofFlat at h
  split_ifs at h with hl
  · dsimp only at h
    unfold Tensor.broadcastTo at h
    split_ifs at h with hb
    dsimp only at h
    cases h
    exact ⟨hl, flat_length _, fun idx hi => flat_getElem? (⟨full, _⟩ : Tensor ℝ) hi⟩

theorem keepShape_prod {V : Type} (axes : List (Axis V)) (names : List String) :
    (keepShape axes names).prod = (sizes (Spec.kept axes names)).prod := by
  unfold keepShape sizes Spec.kept
  induction axes with
  | nil => rfl
  | cons a axes ih =>
    rw [List.map_cons, List.prod_cons, ih]
    by_cases ha : a.name ∈ names <;> simp [ha]

theorem coords_mem {V : Type} {axes : List (Axis V)} (names : List String) {idx : List Nat}
    (h : idx ∈ grid (sizes axes)) : Spec.coords axes names idx ∈ grid (sizes (Spec.kept axes names)) := by
  rw [mem_grid] at h ⊢
  unfold Spec.coords Spec.kept sizes at *
  induction axes generalizing idx with
  | nil => cases h; exact .nil
  | cons a axes ih =>
    cases h with
    | cons h1 h2 =>
      by_cases ha : a.name ∈ names
      · simp only [List.zip_cons_cons, ha, decide_true, List.filter_cons_of_pos, List.map_cons]
        exact .cons h1 (ih h2)
      · simpa [ha] using ih h2

theorem ravel_keep {V : Type} {axes : List (Axis V)} (names : List String) {idx : List Nat}
    (h : idx ∈ grid (sizes axes)) :
    ravel (keepShape axes names) (clampIdx (keepShape axes names) idx) = Spec.cell axes names idx := by
  rw [mem_grid] at h
  unfold Spec.cell
  induction axes generalizing idx with
  | nil => cases h; rfl
  | cons a axes ih =>
    cases h with
    | @cons i _ idx _ h1 h2 =>
      have ih := ih h2
      have hp := keepShape_prod axes names
      unfold sizes at hp
      by_cases ha : a.name ∈ names
      · have e1 : keepShape (a :: axes) names = a.size :: keepShape axes names := by simp [keepShape, ha]
        have e2 : Spec.kept (a :: axes) names = a :: Spec.kept axes names := by simp [Spec.kept, ha]
        have e3 : Spec.coords (a :: axes) names (i :: idx) = i :: Spec.coords axes names idx := by simp [Spec.coords, ha]
        rw [e1, e2, e3]
        have e4 : clampIdx (a.size :: keepShape axes names) (i :: idx) =
            (if a.size = 1 then 0 else i) :: clampIdx (keepShape axes names) idx := rfl
        rw [e4, List.map_cons]
        simp only [ravel]
        rw [ih, hp]
        have h1 : i < a.size := h1
        have : (if a.size = 1 then 0 else i) = i := by split_ifs <;> omega
        rw [this]
      · have e1 : keepShape (a :: axes) names = 1 :: keepShape axes names := by simp [keepShape, ha]
        have e2 : Spec.kept (a :: axes) names = Spec.kept axes names := by simp [Spec.kept, ha]
        have e3 : Spec.coords (a :: axes) names (i :: idx) = Spec.coords axes names idx := by simp [Spec.coords, ha]
        rw [e1, e2, e3]
        have e4 : clampIdx (1 :: keepShape axes names) (i :: idx) = 0 :: clampIdx (keepShape axes names) idx := rfl
        rw [e4]
        simp only [ravel]
        rw [ih]; omega

/-- a spread vector holds in every bin the entry of its cell -/
theorem spread_keep {axes : List (Axis ℝ)} {names : List String} {l u : List ℝ}
    (h : spread (keepShape axes names) (sizes axes) l = .ok u) :
    l.length = (sizes (Spec.kept axes names)).prod ∧ u.length = (sizes axes).prod ∧
    ∀ idx ∈ grid (sizes axes), ∃ x, l[Spec.cell axes names idx]? = some x ∧ u[ravel (sizes axes) idx]? = some x := by
  obtain ⟨h1, h2, h3⟩ := spread_spec h
  refine ⟨by rw [h1, keepShape_prod], h2, fun idx hi => ?_⟩
  have hlt : Spec.cell axes names idx < l.length := by
    rw [h1, keepShape_prod]; exact ravel_lt (coords_mem names hi)
  refine ⟨l[Spec.cell axes names idx], List.getElem?_eq_getElem hlt, ?_⟩
  rw [h3 idx hi, ravel_keep names hi, List.getD_eq_getElem?_getD, List.getElem?_eq_getElem hlt]; rfl

theorem spread_ok {axes : List (Axis ℝ)} {names : List String} {l : List ℝ}
    (h : l.length = (sizes (Spec.kept axes names)).prod) : ∃ u, spread (keepShape axes names) (sizes axes) l = .ok u := by
  unfold spread ofFlat
  rw [if_pos (by rw [keepShape_prod]; exact h)]
  dsimp only
  unfold Tensor.broadcastTo
  rw [if_pos]
  · exact ⟨_, rfl⟩
  · refine ⟨by simp [keepShape, sizes], fun p hp => ?_⟩
    simp only [keepShape, sizes, List.zip_map', List.mem_map] at hp
    obtain ⟨a, -, rfl⟩ := hp
    by_cases ha : names.contains a.name = true
    · right; simp only [ha, if_true]
    · left; simp only [ha]; rfl

theorem addProcs_spec {scal : Nat → Res (List ℝ)} {ps : List Nat} {i : Nat} {rows rows' : List (Nat → ℝ)}
    (h : addProcs scal i ps rows = .ok rows') :
    rows'.length = rows.length ∧
    ∀ (t : Nat) (row : Nat → ℝ), rows[t]? = some row → ∃ row', rows'[t]? = some row' ∧ ∀ q,
      (q ∉ ps → row' q = row q) ∧
      (ps.Nodup → ∀ j, ps[j]? = some q → ∃ l s, scal (i + j) = .ok l ∧ l[t]? = some s ∧ row' q = row q + (s - 1)) := by
  induction ps generalizing i rows with
  | nil =>
    cases h
    exact ⟨rfl, fun t row ht => ⟨row, ht, fun q => ⟨fun _ => rfl, fun _ j hj => by simp at hj⟩⟩⟩
  | cons p ps ih =>
    unfold addProcs at h
    split at h
    · exact nomatch h
    rename_i s hs
    unfold addProc at h
    split_ifs at h with hl
    dsimp only at h
    rw [not_not] at hl
    obtain ⟨h1, h2⟩ := ih h
    refine ⟨by rw [h1]; simp [hl], fun t row ht => ?_⟩
    have htl : t < rows.length := (List.getElem?_eq_some_iff.1 ht).1
    have hts : s[t]? = some (s[t]'(by omega)) := List.getElem?_eq_getElem (by omega)
    obtain ⟨row', hr', h3⟩ := h2 t (fun q => row q + (s[t]'(by omega) - 1) * if q = p then 1 else 0) (by
      rw [List.getElem?_zipWith, ht, hts])
    refine ⟨row', hr', fun q => ⟨fun hq => ?_, fun hnd j hj => ?_⟩⟩
    · rw [List.mem_cons, not_or] at hq
      rw [(h3 q).1 hq.2, if_neg hq.1]; ring
    · rw [List.nodup_cons] at hnd
      cases j with
      | zero =>
        simp only [List.getElem?_cons_zero, Option.some.injEq] at hj
        subst hj
        refine ⟨s, _, hs, hts, ?_⟩
        rw [(h3 p).1 hnd.1, if_pos rfl]; ring
      | succ j =>
        simp only [List.getElem?_cons_succ] at hj
        obtain ⟨l, s', e1, e2, e3⟩ := (h3 q).2 hnd.2 j hj
        refine ⟨l, s', by rw [← e1]; congr 1; omega, e2, ?_⟩
        have : q ≠ p := by rintro rfl; exact hnd.1 (List.mem_of_getElem? hj)
        rw [e3, if_neg this]; ring

theorem channelRows_spec {ch : String} {ps : List Nat} {scal : Nat → Res (List ℝ)} {k : String} {c : Chan ℝ}
    {rows : List (Nat → ℝ)} (h : channelRows ch ps scal k c = .ok rows) :
    rows.length = (sizes c.axes).prod ∧ ∀ t, t < (sizes c.axes).prod → ∃ row, rows[t]? = some row ∧ ∀ q,
      (k ≠ ch ∨ q ∉ ps → row q = 1) ∧
      (k = ch → ps.Nodup → ∀ j, ps[j]? = some q → ∃ l s, scal j = .ok l ∧ l[t]? = some s ∧ row q = s) := by
  unfold channelRows at h
  dsimp only at h
  have ht' : ∀ t, t < (sizes c.axes).prod →
      (List.replicate (sizes c.axes).prod (fun _ : Nat => (1 : ℝ)))[t]? = some fun _ => 1 := fun t ht => by
    rw [List.getElem?_replicate, if_pos ht]
  split_ifs at h with hk
  · obtain ⟨h1, h2⟩ := addProcs_spec h
    refine ⟨by rw [h1]; simp, fun t ht => ?_⟩
    obtain ⟨row, hr, h3⟩ := h2 t _ (ht' t ht)
    refine ⟨row, hr, fun q => ⟨fun hq => ?_, fun _ hnd j hj => ?_⟩⟩
    · exact (h3 q).1 (hq.resolve_left fun hc => hc hk)
    · obtain ⟨l, s, e1, e2, e3⟩ := (h3 q).2 hnd j hj
      exact ⟨l, s, by rw [← e1]; congr 1; omega, e2, by rw [e3]; ring⟩
  · cases h
    exact ⟨by simp, fun t ht => ⟨_, ht' t ht, fun q => ⟨fun _ => rfl, fun hc => absurd hc hk⟩⟩⟩

theorem flatten_append_getElem? {α : Type*} (A : List (List α)) (x : List α) (B : List (List α)) (t : Nat)
    (ht : t < x.length) : (A ++ x :: B).flatten[(A.map List.length).sum + t]? = x[t]? := by
  rw [List.flatten_append, List.getElem?_append_right (by rw [List.length_flatten]; omega), List.length_flatten,
    Nat.add_sub_cancel_left, List.flatten_cons, List.getElem?_append_left ht]

theorem axisCompute_spec {inp : InData ℝ} {ch : String} {ps : List Nat} {scal : Nat → Res (List ℝ)} {full : Bool}
    {r : Rates ℝ} (h : axisCompute inp ch ps scal full = .ok r) :
    r.cols = inp.procs.length ∧ r.rows = Spec.offset (Spec.active inp full) ∧
    ∀ (pre : List (String × Chan ℝ)) (k : String) (c : Chan ℝ) (post : List (String × Chan ℝ)),
      Spec.active inp full = pre ++ (k, c) :: post → ∀ t, t < (sizes c.axes).prod → ∀ q,
      (k ≠ ch ∨ q ∉ ps → r.val (Spec.offset pre + t) q = 1) ∧
      (k = ch → ps.Nodup → ∀ j, ps[j]? = some q → ∃ l s, scal j = .ok l ∧ l[t]? = some s ∧
        r.val (Spec.offset pre + t) q = s) := by
  unfold axisCompute at h
  split at h
  · exact nomatch h
  rename_i bl hbl
  have hall := allOk_spec hbl
  split_ifs at h
  cases h
  rw [activeChans_eq] at hall
  have hlen : ∀ (l : List (String × Chan ℝ)) (b : List (List (Nat → ℝ))),
      (l.map fun e => channelRows ch ps scal e.1 e.2) = b.map .ok → (b.map List.length).sum = Spec.offset l := by
    intro l
    induction l with
    | nil => intro b hb; cases b with
      | nil => rfl
      | cons => simp at hb
    | cons e l ih =>
      intro b hb
      cases b with
      | nil => simp at hb
      | cons x b =>
        simp only [List.map_cons, List.cons.injEq] at hb
        rw [List.map_cons, List.sum_cons, ih b hb.2, (channelRows_spec hb.1).1]
        rfl
  refine ⟨rfl, ?_, ?_⟩
  · dsimp only; rw [List.length_flatten]; exact hlen _ _ hall
  · intro pre k c post hact t ht q
    rw [hact] at hall
    rw [List.map_append, List.map_cons, eq_comm, List.map_eq_append_iff] at hall
    obtain ⟨A, B', rfl, hA, hB⟩ := hall
    rw [List.map_eq_cons_iff] at hB
    obtain ⟨x, B, rfl, hx, -⟩ := hB
    obtain ⟨h1, h2⟩ := channelRows_spec hx.symm
    obtain ⟨row, hr, h3⟩ := h2 t ht
    have e : (A ++ x :: B).flatten.getD (Spec.offset pre + t) (fun _ => 1) = row := by
      rw [← hlen pre A hA.symm, List.getD_eq_getElem?_getD, flatten_append_getElem? _ _ _ _ (by rw [h1]; exact ht), hr]
      rfl
    dsimp only
    rw [e]
    exact h3 q

/-- looking up names gives the axes with these names -/
theorem lookupAxes_spec {V : Type} {axes : List (Axis V)} {names : List String} {as : List (Axis V)}
    (h : lookupAxes axes names = .ok as) : as.map (·.name) = names ∧ ∀ a ∈ as, a ∈ axes := by
  induction names generalizing as with
  | nil => cases h; simp
  | cons n ns ih =>
    unfold lookupAxes at h
    split at h
    · exact nomatch h
    rename_i a ha
    split at h
    · exact nomatch h
    rename_i as' has
    cases h
    obtain ⟨h1, h2⟩ := ih has
    unfold axisByName at ha
    have hm := List.mem_of_find?_eq_some ha
    have hnm := List.find?_some ha
    simp only [decide_eq_true_eq] at hnm
    refine ⟨by rw [List.map_cons, h1, hnm], fun b hb => ?_⟩
    rcases List.mem_cons.1 hb with rfl | hb
    · simpa using hm
    · exact h2 b hb

/-- requests in the order of the channel give the kept axes -/
theorem lookup_eq_kept {V : Type} {axes : List (Axis V)} {names : List String} {as : List (Axis V)}
    (h : lookupAxes axes names = .ok as) (hn : (axes.map (·.name)).Nodup)
    (hord : names = (Spec.kept axes names).map (·.name)) : as = Spec.kept axes names := by
  obtain ⟨h1, h2⟩ := lookupAxes_spec h
  have inj : ∀ a ∈ axes, ∀ b ∈ axes, a.name = b.name → a = b := fun a ha b hb hab => List.inj_on_of_nodup_map hn ha hb hab
  have h3 : as.map (·.name) = (Spec.kept axes names).map (·.name) := h1.trans hord
  have hk : ∀ a ∈ Spec.kept axes names, a ∈ axes := fun a ha => (List.mem_filter.1 ha).1
  generalize Spec.kept axes names = ks at h3 hk
  clear h h1 hord
  induction as generalizing ks with
  | nil => cases ks with
    | nil => rfl
    | cons => simp at h3
  | cons a as ih =>
    cases ks with
    | nil => simp at h3
    | cons k ks =>
      simp only [List.map_cons, List.cons.injEq] at h3
      rw [inj a (h2 a (by simp)) k (hk k (by simp)) h3.1, ih (fun b hb => h2 b (by simp [hb])) ks h3.2 fun b hb =>
        hk b (by simp [hb])]

/-- distinct requests in any order give the same number of cells -/
theorem lookup_perm {V : Type} {axes : List (Axis V)} {names : List String} {as : List (Axis V)}
    (h : lookupAxes axes names = .ok as) (hn : (axes.map (·.name)).Nodup) (hnd : names.Nodup) :
    (sizes as).prod = (sizes (Spec.kept axes names)).prod := by
  obtain ⟨h1, h2⟩ := lookupAxes_spec h
  have hna : as.Nodup := List.Nodup.of_map (·.name) (h1 ▸ hnd)
  have hnk : (Spec.kept axes names).Nodup := (List.Nodup.of_map _ hn).filter _
  have : as.Perm (Spec.kept axes names) := by
    rw [List.perm_ext_iff_of_nodup hna hnk]
    intro a
    constructor
    · intro ha
      refine List.mem_filter.2 ⟨h2 a ha, ?_⟩
      simp only [decide_eq_true_eq]
      rw [← h1]; exact List.mem_map_of_mem ha
    · intro ha
      obtain ⟨ha1, ha2⟩ := List.mem_filter.1 ha
      simp only [decide_eq_true_eq] at ha2
      rw [← h1] at ha2
      obtain ⟨b, hb, hab⟩ := List.mem_map.1 ha2
      rw [← List.inj_on_of_nodup_map hn (h2 b hb) ha1 hab]; exact hb
  exact (this.map _).prod_eq

theorem targets_spec {procs : List String} {ps : Option (List String)} {ts : List String}
    (h : targets procs ps = .ok ts) : ts = ps.getD procs ∧ ∀ p ∈ ts, p ∈ procs := by
  cases ps with
  | none => cases h; exact ⟨rfl, fun p hp => hp⟩
  | some l =>
    simp only [targets] at h
    split_ifs at h with hl
    cases h
    refine ⟨rfl, fun p hp => ?_⟩
    rw [List.all_eq_true] at hl
    simpa using hl p hp

/-- positions of the selected processes -/
theorem idx_spec {procs ts : List String} (hp : procs.Nodup) (hmem : ∀ p ∈ ts, p ∈ procs) {q : Nat} {proc : String}
    (hq : procs[q]? = some proc) :
    (∀ i : Nat, (ts.map fun p => procs.idxOf p)[i]? = some q ↔ ts[i]? = some proc) ∧
    (q ∈ (ts.map fun p => procs.idxOf p) ↔ proc ∈ ts) ∧
    (ts.Nodup → (ts.map fun p => procs.idxOf p).Nodup) := by
  have hqe : procs.idxOf proc = q := by
    obtain ⟨hl, rfl⟩ := List.getElem?_eq_some_iff.1 hq
    exact hp.idxOf_getElem q hl
  have key : ∀ p ∈ ts, (procs.idxOf p = q ↔ p = proc) := by
    intro p hpm
    constructor
    · intro he
      have h1 : procs[procs.idxOf p]? = some p := by
        rw [List.getElem?_eq_getElem (List.idxOf_lt_length_of_mem (hmem p hpm)), List.getElem_idxOf]
      rw [he, hq] at h1
      exact (Option.some.inj h1).symm
    · rintro rfl; exact hqe
  refine ⟨fun i => ?_, ?_, fun hnd => ?_⟩
  · rw [List.getElem?_map, Option.map_eq_some_iff]
    constructor
    · rintro ⟨p, h1, h2⟩
      rw [h1, (key p (List.mem_of_getElem? h1)).1 h2]
    · intro h1; exact ⟨proc, h1, hqe⟩
  · rw [List.mem_map]
    constructor
    · rintro ⟨p, h1, h2⟩; rw [← (key p h1).1 h2]; exact h1
    · intro h1; exact ⟨proc, h1, hqe⟩
  · refine List.Nodup.map_on (fun a ha b hb hab => ?_) hnd
    have h1 : procs[procs.idxOf a]? = some a := by
      rw [List.getElem?_eq_getElem (List.idxOf_lt_length_of_mem (hmem a ha)), List.getElem_idxOf]
    have h2 : procs[procs.idxOf b]? = some b := by
      rw [List.getElem?_eq_getElem (List.idxOf_lt_length_of_mem (hmem b hb)), List.getElem_idxOf]
    rw [hab, h2] at h1
    exact (Option.some.inj h1).symm

theorem slice_some {α : Type} {l : List α} {a b t : Nat} {x : α} (h : (slice l a b)[t]? = some x) : l[a + t]? = some x := by
  unfold slice at h
  rw [List.getElem?_take] at h
  split_ifs at h
  rwa [List.getElem?_drop] at h

theorem slice_length {α : Type} {l : List α} {a b : Nat} (hb : b ≤ l.length) :
    (slice l a b).length = b - a := by
  unfold slice; simp; omega

/-! ### AxisNormModel -/

structure NormBuilt (inp : InData ℝ) (ch : String) (ps : Option (List String)) (req : List String)
    (expect : List (String × ℝ)) (m : NormModel) (c : Chan ℝ) (axs : List (Axis ℝ)) (d : List ℝ) : Prop where
  chan : inp.chans.get? ch = some c
  look : lookupAxes c.axes req = .ok axs
  targ : targets inp.procs ps = .ok (Spec.chosen inp ps)
  mem : ∀ p ∈ Spec.chosen inp ps, p ∈ inp.procs
  expected : expectLoop m.params expect (List.replicate ((Spec.chosen inp ps).length * (sizes axs).prod) 1) = .ok d
  eq : m = ⟨ch, c.axes, req, (Spec.chosen inp ps).map fun p => inp.procs.idxOf p, (sizes axs).prod,
    (Spec.chosen inp ps).length * (sizes axs).prod, (Spec.chosen inp ps).flatMap fun p => cellNames "norm" p axs,
    d.map Real.sqrt⟩

theorem normInit_built {inp : InData ℝ} {ch : String} {ps : Option (List String)} {req : List String}
    {expect : List (String × ℝ)} {m : NormModel} (h : normInit inp ch ps req expect = .ok m) :
    ∃ c axs d, NormBuilt inp ch ps req expect m c axs d := by
  unfold normInit at h
  split at h
  · exact nomatch h
  rename_i c hc
  split at h
  · exact nomatch h
  rename_i axs hax
  split at h
  · exact nomatch h
  rename_i ts hts
  dsimp only at h
  split at h
  · exact nomatch h
  rename_i d hd
  cases h
  obtain ⟨h1, h2⟩ := targets_spec hts
  subst h1
  exact ⟨c, axs, d, ⟨hc, hax, hts, h2, hd, rfl⟩⟩

theorem mem_grid_axes {V : Type} {axes : List (Axis V)} {idx : List Nat} :
    idx ∈ grid (sizes axes) ↔ List.Forall₂ (fun i (a : Axis V) => i < a.size) idx axes := by
  rw [mem_grid, sizes, List.forall₂_map_right_iff]

theorem get?_unique {inp : InData ℝ} {full : Bool} {pre post : List (String × Chan ℝ)} {ch : String} {c c' : Chan ℝ}
    (hk : inp.chans.keys.Nodup) (hc : inp.chans.get? ch = some c)
    (hact : Spec.active inp full = pre ++ (ch, c') :: post) : c' = c := by
  have : (ch, c') ∈ inp.chans := by
    have h : (ch, c') ∈ Spec.active inp full := by rw [hact]; simp
    exact (List.mem_filter.1 h).1
  have := Dict.get?_of_mem _ _ _ hk this
  rw [hc] at this
  exact (Option.some.inj this).symm

/-- The factor of a bin and a process: one outside of the channel and for other processes; for the `i`-th selected process
the square of the parameter of the cell of the bin. -/
theorem c49_norm_rates {inp : InData ℝ} {ch : String} {ps : Option (List String)} {req : List String}
    {expect : List (String × ℝ)} {m : NormModel} (h : normInit inp ch ps req expect = .ok m)
    {param : List ℝ} {full : Bool} {r : Rates ℝ} (hr : normCompute inp m param full = .ok r)
    (hk : inp.chans.keys.Nodup) (hp : inp.procs.Nodup) (hts : (Spec.chosen inp ps).Nodup)
    {pre post : List (String × Chan ℝ)} {k : String} {c : Chan ℝ}
    (hact : Spec.active inp full = pre ++ (k, c) :: post) {idx : List Nat}
    (hidx : List.Forall₂ (fun i (a : Axis ℝ) => i < a.size) idx c.axes) {q : Nat} {proc : String}
    (hq : inp.procs[q]? = some proc) :
    r.cols = inp.procs.length ∧ r.rows = Spec.offset (Spec.active inp full) ∧
    ((k ≠ ch ∨ proc ∉ Spec.chosen inp ps) → r.val (Spec.offset pre + ravel (sizes c.axes) idx) q = 1) ∧
    (k = ch → ∀ i, (Spec.chosen inp ps)[i]? = some proc →
      ∃ x, param[i * m.nCell + Spec.cell c.axes req idx]? = some x ∧
        r.val (Spec.offset pre + ravel (sizes c.axes) idx) q = x ^ 2) := by
  obtain ⟨c0, axs, d, B⟩ := normInit_built h
  obtain ⟨i1, i2, i3⟩ := idx_spec hp B.mem hq
  have hg := mem_grid_axes.2 hidx
  unfold normCompute at hr
  obtain ⟨h1, h2, h3⟩ := axisCompute_spec hr
  obtain ⟨h4, h5⟩ := h3 pre k c post hact _ (ravel_lt hg) q
  refine ⟨h1, h2, fun hne => h4 ?_, ?_⟩
  · rcases hne with hne | hne
    · left; rw [B.eq]; exact hne
    · right; rw [B.eq]; exact fun hm => hne (i2.1 hm)
  · rintro rfl i hi
    have : c = c0 := get?_unique hk B.chan hact
    subst this
    obtain ⟨l, s, e1, e2, e3⟩ := h5 (by rw [B.eq]) (by rw [B.eq]; exact i3 hts) i (by rw [B.eq]; exact (i1 i).2 hi)
    have em : m.axes = c.axes ∧ m.requested = req := by rw [B.eq]; exact ⟨rfl, rfl⟩
    rw [em.1, em.2] at e1
    obtain ⟨-, -, h6⟩ := spread_keep e1
    obtain ⟨x, hx1, hx2⟩ := h6 idx hg
    rw [e2] at hx2
    cases hx2
    rw [List.getElem?_map, Option.map_eq_some_iff] at hx1
    obtain ⟨y, hy, rfl⟩ := hx1
    exact ⟨y, slice_some hy, e3⟩

theorem flatMap_uniform_getElem? {α β : Type} (ts : List α) (f : α → List β) (n : Nat) (hf : ∀ a, (f a).length = n)
    {i t : Nat} (ht : t < n) : (ts.flatMap f)[i * n + t]? = ts[i]?.bind fun a => (f a)[t]? := by
  rw [List.flatMap_def, flatten_getElem?_uniform (n := n) (by simp [hf]) ht, List.getElem?_map]
  cases ts[i]? <;> rfl

theorem cellNames_getElem? {V : Type} (pre proc : String) (axes : List (Axis V)) {idx : List Nat}
    (h : idx ∈ grid (sizes axes)) : (cellNames pre proc axes)[ravel (sizes axes) idx]? =
      some (pre ++ "_" ++ proc ++ "_" ++ Spec.label axes idx) := by
  unfold cellNames
  rw [List.getElem?_map, List.getElem?_eq_getElem (by rw [length_grid]; exact ravel_lt h), grid_getElem_ravel h]
  rfl

theorem cellNames_length {V : Type} (pre proc : String) (axes : List (Axis V)) :
    (cellNames pre proc axes).length = (sizes axes).prod := by simp [cellNames, length_grid]

/-- Names: if the axes are requested in the order of the channel, the parameter that a bin uses is named after the process
and the cell of the bin. -/
theorem c49_norm_names_partial {inp : InData ℝ} {ch : String} {ps : Option (List String)} {req : List String}
    {expect : List (String × ℝ)} {m : NormModel} (h : normInit inp ch ps req expect = .ok m)
    {c : Chan ℝ} (hc : inp.chans.get? ch = some c) (hn : (c.axes.map (·.name)).Nodup)
    (hord : req = (Spec.kept c.axes req).map (·.name)) {idx : List Nat}
    (hidx : List.Forall₂ (fun i (a : Axis ℝ) => i < a.size) idx c.axes) {i : Nat} {proc : String}
    (hi : (Spec.chosen inp ps)[i]? = some proc) :
    m.params.length = m.npoi ∧
    m.params[i * m.nCell + Spec.cell c.axes req idx]? =
      some ("norm_" ++ proc ++ "_" ++ Spec.label (Spec.kept c.axes req) (Spec.coords c.axes req idx)) := by
  obtain ⟨c0, axs, d, B⟩ := normInit_built h
  have : c0 = c := Option.some.inj (B.chan.symm.trans hc)
  subst this
  have ha := lookup_eq_kept B.look hn hord
  have hcm := coords_mem req (mem_grid_axes.2 hidx)
  rw [B.eq]
  dsimp only
  refine ⟨?_, ?_⟩
  · rw [List.length_flatMap]
    simp [cellNames_length]
  · rw [ha]
    refine (flatMap_uniform_getElem? _ _ _ (fun p => cellNames_length "norm" p _) (ravel_lt hcm)).trans ?_
    rw [hi, Option.bind_some]
    exact cellNames_getElem? _ _ _ hcm

theorem addProcs_ok {scal : Nat → Res (List ℝ)} {n : Nat} : ∀ (ps : List Nat) (i : Nat) (rows : List (Nat → ℝ)),
    rows.length = n → (∀ j, j < ps.length → ∃ l, scal (i + j) = .ok l ∧ l.length = n) →
    ∃ rows', addProcs scal i ps rows = .ok rows'
  | [], i, rows, _, _ => ⟨rows, rfl⟩
  | p :: ps, i, rows, hn, h => by
    obtain ⟨l, h1, h2⟩ := h 0 (by simp)
    unfold addProcs
    rw [Nat.add_zero] at h1
    rw [h1]
    unfold addProc
    dsimp only
    rw [if_neg (by omega)]
    dsimp only
    refine addProcs_ok (n := n) ps (i + 1) _ (by simp; omega) fun j hj => ?_
    obtain ⟨l', h3, h4⟩ := h (j + 1) (by simpa using hj)
    exact ⟨l', by rw [← h3]; congr 1; omega, h4⟩

theorem allOk_ok {α : Type} : ∀ (l : List (Res α)), (∀ x ∈ l, ∃ a, x = .ok a) → ∃ as, allOk l = .ok as
  | [], _ => ⟨[], rfl⟩
  | x :: l, h => by
    obtain ⟨a, rfl⟩ := h x (by simp)
    obtain ⟨as, has⟩ := allOk_ok l fun y hy => h y (by simp [hy])
    refine ⟨a :: as, ?_⟩
    rw [allOk.eq_def]
    dsimp only
    rw [has]

theorem axisCompute_ok {inp : InData ℝ} {ch : String} {ps : List Nat} {scal : Nat → Res (List ℝ)} {full : Bool}
    {c : Chan ℝ} (hk : inp.chans.keys.Nodup) (hc : inp.chans.get? ch = some c) (hne : Spec.active inp full ≠ [])
    (h : ∀ i, i < ps.length → ∃ l, scal i = .ok l ∧ l.length = (sizes c.axes).prod) :
    ∃ r, axisCompute inp ch ps scal full = .ok r := by
  unfold axisCompute
  rw [activeChans_eq]
  obtain ⟨bl, hbl⟩ := allOk_ok ((Spec.active inp full).map fun e => channelRows ch ps scal e.1 e.2) (by
    intro x hx
    obtain ⟨⟨k, c'⟩, he, rfl⟩ := List.mem_map.1 hx
    unfold channelRows
    dsimp only
    split_ifs with hkc
    · subst hkc
      have : c' = c := by
        have := Dict.get?_of_mem _ _ _ hk (List.mem_filter.1 he).1
        rw [hc] at this
        exact (Option.some.inj this).symm
      subst this
      exact addProcs_ok ps 0 _ (List.length_replicate ..) fun j hj => by rw [Nat.zero_add]; exact h j hj
    · exact ⟨_, rfl⟩)
  rw [hbl]
  dsimp only
  have hl := congrArg List.length (allOk_spec hbl)
  simp only [List.length_map] at hl
  rw [if_neg]
  · exact ⟨_, rfl⟩
  · intro he
    rw [List.isEmpty_iff] at he
    rw [he, List.length_nil, List.length_eq_zero_iff] at hl
    exact hne hl

/-- The model evaluates for every parameter vector of the declared size, in any order of distinct axes. -/
theorem c49_norm_evaluates {inp : InData ℝ} {ch : String} {ps : Option (List String)} {req : List String}
    {expect : List (String × ℝ)} {m : NormModel} (h : normInit inp ch ps req expect = .ok m) (hk : inp.chans.keys.Nodup)
    (hn : ∀ c, inp.chans.get? ch = some c → (c.axes.map (·.name)).Nodup) (hreq : req.Nodup) (full : Bool)
    (hne : Spec.active inp full ≠ []) (param : List ℝ) (hlen : param.length = m.npoi) :
    ∃ r, normCompute inp m param full = .ok r := by
  obtain ⟨c, axs, d, B⟩ := normInit_built h
  unfold normCompute
  have e := B.eq
  have em : m.axes = c.axes ∧ m.requested = req ∧ m.nCell = (sizes axs).prod ∧ m.channel = ch ∧
      m.npoi = m.procIdxs.length * m.nCell := by rw [e]; simp
  obtain ⟨e1, e2, e3, e4, e5⟩ := em
  rw [e4]
  refine axisCompute_ok hk B.chan hne fun i hi => ?_
  rw [e1, e2]
  have hle : (i + 1) * m.nCell ≤ param.length := by rw [hlen, e5]; exact Nat.mul_le_mul_right _ hi
  have hsl : ((slice param (i * m.nCell) ((i + 1) * m.nCell)).map (· ^ 2)).length =
      (sizes (Spec.kept c.axes req)).prod := by
    rw [List.length_map, slice_length hle, ← lookup_perm B.look (hn c B.chan) hreq,
      ← e3, Nat.succ_mul, Nat.add_sub_cancel_left]
  obtain ⟨u, hu⟩ := spread_ok hsl
  exact ⟨u, hu, (spread_keep hu).2.1⟩

theorem expectLoop_spec {params : List String} (hp : params.Nodup) {expect : List (String × ℝ)} {d d' : List ℝ}
    (h : expectLoop params expect d = .ok d') (hnd : (expect.map (·.1)).Nodup) :
    d'.length = d.length ∧ ∀ (j : Nat) (n : String), params[j]? = some n →
      (∀ v, (n, v) ∈ expect → j < d.length → d'[j]? = some v) ∧ ((∀ v, (n, v) ∉ expect) → d'[j]? = d[j]?) := by
  induction expect generalizing d with
  | nil => cases h; exact ⟨rfl, fun j n _ => ⟨fun v hv => by simp at hv, fun _ => rfl⟩⟩
  | cons e expect ih =>
    obtain ⟨n0, v0⟩ := e
    unfold expectLoop at h
    split_ifs at h with hc
    rw [List.map_cons, List.nodup_cons] at hnd
    obtain ⟨h1, h2⟩ := ih h hnd.2
    refine ⟨by rw [h1, List.length_set], fun j n hj => ?_⟩
    obtain ⟨h3, h4⟩ := h2 j n hj
    have hidx : params.idxOf n = j := by
      obtain ⟨hl, rfl⟩ := List.getElem?_eq_some_iff.1 hj
      exact hp.idxOf_getElem j hl
    constructor
    · intro v hv hlt
      rcases List.mem_cons.1 hv with hv | hv
      · cases hv
        rw [h4 fun w hw => hnd.1 (List.mem_map_of_mem (f := (·.1)) hw), hidx, List.getElem?_set_self hlt]
      · exact h3 v hv (by simpa using hlt)
    · intro hno
      rw [h4 fun v hv => hno v (by simp [hv]), List.getElem?_set_ne]
      intro he
      have hne : n0 ≠ n := fun hn0 => hno v0 (by simp [hn0])
      have h5 : params[params.idxOf n0]? = some n0 := by
        rw [List.getElem?_eq_getElem (List.idxOf_lt_length_of_mem (by simpa using hc)), List.getElem_idxOf]
      rw [he, hj] at h5
      exact hne (Option.some.inj h5).symm

/-- Start values: the factor of every cell is one unless another value is requested for the parameter by name, and then
it is that value. -/
theorem c49_norm_default {inp : InData ℝ} {ch : String} {ps : Option (List String)} {req : List String}
    {expect : List (String × ℝ)} {m : NormModel} (h : normInit inp ch ps req expect = .ok m) (hp : m.params.Nodup)
    (he : (expect.map (·.1)).Nodup) (hpos : ∀ e ∈ expect, 0 ≤ e.2) :
    m.xdef.length = m.npoi ∧ ∀ (j : Nat) (n : String), m.params[j]? = some n →
      (∀ v, (n, v) ∈ expect → ∃ x, m.xdef[j]? = some x ∧ x ^ 2 = v) ∧
      ((∀ v, (n, v) ∉ expect) → m.xdef[j]? = some 1) := by
  obtain ⟨c, axs, d, B⟩ := normInit_built h
  obtain ⟨h1, h2⟩ := expectLoop_spec hp B.expected he
  have e := B.eq
  have em : m.xdef = d.map Real.sqrt ∧ m.npoi = (Spec.chosen inp ps).length * (sizes axs).prod ∧
      m.params.length = (Spec.chosen inp ps).length * (sizes axs).prod := by
    rw [e]; refine ⟨rfl, rfl, ?_⟩
    dsimp only
    rw [List.length_flatMap]; simp [cellNames_length]
  obtain ⟨e1, e2, e3⟩ := em
  rw [List.length_replicate] at h1
  refine ⟨by rw [e1, List.length_map, h1, e2], fun j n hj => ?_⟩
  obtain ⟨h3, h4⟩ := h2 j n hj
  have hlt : j < (Spec.chosen inp ps).length * (sizes axs).prod := by rw [← e3]; exact (List.getElem?_eq_some_iff.1 hj).1
  constructor
  · intro v hv
    refine ⟨Real.sqrt v, by rw [e1, List.getElem?_map, h3 v hv (by simpa using hlt)]; rfl, Real.sq_sqrt (hpos _ hv)⟩
  · intro hno
    rw [e1, List.getElem?_map, h4 hno, List.getElem?_replicate, if_pos hlt]
    simp

/-- Without requested values every factor of the model is one at the start. -/
theorem c49_norm_start {inp : InData ℝ} {ch : String} {ps : Option (List String)} {req : List String}
    {m : NormModel} (h : normInit inp ch ps req [] = .ok m)
    {full : Bool} {r : Rates ℝ} (hr : normCompute inp m m.xdef full = .ok r)
    (hk : inp.chans.keys.Nodup) (hp : inp.procs.Nodup) (hts : (Spec.chosen inp ps).Nodup)
    {pre post : List (String × Chan ℝ)} {k : String} {c : Chan ℝ}
    (hact : Spec.active inp full = pre ++ (k, c) :: post) {idx : List Nat}
    (hidx : List.Forall₂ (fun i (a : Axis ℝ) => i < a.size) idx c.axes) {q : Nat} {proc : String}
    (hq : inp.procs[q]? = some proc) : r.val (Spec.offset pre + ravel (sizes c.axes) idx) q = 1 := by
  obtain ⟨-, -, h1, h2⟩ := c49_norm_rates h hr hk hp hts hact hidx hq
  by_cases hsel : k ≠ ch ∨ proc ∉ Spec.chosen inp ps
  · exact h1 hsel
  · push Not at hsel
    obtain ⟨i, hi⟩ := List.getElem?_of_mem hsel.2
    obtain ⟨x, hx, hv⟩ := h2 hsel.1 i hi
    obtain ⟨c, axs, d, B⟩ := normInit_built h
    have e1 : d = List.replicate _ 1 := (Except.ok.inj B.expected).symm
    have : x = 1 := by
      rw [B.eq, e1] at hx
      dsimp only at hx
      rw [List.getElem?_map, List.getElem?_replicate] at hx
      split_ifs at hx
      · simpa using hx.symm
      · simp at hx
    rw [hv, this]; norm_num

/-! ### AxisExpModel and AxisBernsteinModel -/

theorem spread3_keep {f : ℝ → ℝ → ℝ → ℝ} {axes : List (Axis ℝ)} {na nb nx : List String} {a b x u : List ℝ}
    (h : spread3 f (keepShape axes na) (keepShape axes nb) (keepShape axes nx) (sizes axes) a b x = .ok u) :
    u.length = (sizes axes).prod ∧ ∀ idx ∈ grid (sizes axes), ∃ va vb vx, a[Spec.cell axes na idx]? = some va ∧
      b[Spec.cell axes nb idx]? = some vb ∧ x[Spec.cell axes nx idx]? = some vx ∧
      u[ravel (sizes axes) idx]? = some (f va vb vx) := by
  unfold spread3 at h
  split at h
  · rename_i a' b' x' ha hb hx
    cases h
    obtain ⟨-, a1, a2⟩ := spread_keep ha
    obtain ⟨-, b1, b2⟩ := spread_keep hb
    obtain ⟨-, x1, x2⟩ := spread_keep hx
    refine ⟨by simp [a1, b1, x1], fun idx hi => ?_⟩
    obtain ⟨va, ga, ga'⟩ := a2 idx hi
    obtain ⟨vb, gb, gb'⟩ := b2 idx hi
    obtain ⟨vx, gx, gx'⟩ := x2 idx hi
    refine ⟨va, vb, vx, ga, gb, gx, ?_⟩
    rw [List.getElem?_zipWith, List.zip, List.getElem?_zipWith, ga', gb', gx']
  · exact nomatch h

theorem spread3_ok {f : ℝ → ℝ → ℝ → ℝ} {axes : List (Axis ℝ)} {na nb nx : List String} {a b x : List ℝ}
    (ha : a.length = (sizes (Spec.kept axes na)).prod) (hb : b.length = (sizes (Spec.kept axes nb)).prod)
    (hx : x.length = (sizes (Spec.kept axes nx)).prod) :
    ∃ u, spread3 f (keepShape axes na) (keepShape axes nb) (keepShape axes nx) (sizes axes) a b x = .ok u := by
  obtain ⟨a', ha⟩ := spread_ok ha
  obtain ⟨b', hb⟩ := spread_ok hb
  obtain ⟨x', hx⟩ := spread_ok hx
  unfold spread3
  rw [ha, hb, hx]
  exact ⟨_, rfl⟩

theorem kept_single {V : Type} {axes : List (Axis V)} (hn : (axes.map (·.name)).Nodup) {k0 : Nat} {sa : Axis V}
    (hk : axes[k0]? = some sa) : Spec.kept axes [sa.name] = [sa] := by
  unfold Spec.kept
  induction axes generalizing k0 with
  | nil => simp at hk
  | cons a axes ih =>
    rw [List.map_cons, List.nodup_cons] at hn
    cases k0 with
    | zero =>
      simp only [List.getElem?_cons_zero, Option.some.injEq] at hk
      subst hk
      rw [List.filter_cons_of_pos (by simp), List.filter_eq_nil_iff.2]
      intro b hb
      simp only [List.mem_singleton, decide_eq_true_eq]
      intro he
      exact hn.1 (by rw [← he]; exact List.mem_map_of_mem hb)
    | succ k0 =>
      simp only [List.getElem?_cons_succ] at hk
      rw [List.filter_cons_of_neg, ih hn.2 hk]
      simp only [List.mem_singleton, decide_eq_true_eq]
      intro he
      exact hn.1 (by rw [he]; exact List.mem_map_of_mem (List.mem_of_getElem? hk))

theorem coords_single {V : Type} {axes : List (Axis V)} (hn : (axes.map (·.name)).Nodup) {k0 t : Nat} {sa : Axis V}
    (hk : axes[k0]? = some sa) {idx : List Nat} (hl : idx.length = axes.length) (ht : idx[k0]? = some t) :
    Spec.coords axes [sa.name] idx = [t] := by
  unfold Spec.coords
  induction axes generalizing k0 idx with
  | nil => simp at hk
  | cons a axes ih =>
    rw [List.map_cons, List.nodup_cons] at hn
    cases idx with
    | nil => simp at hl
    | cons i idx =>
      cases k0 with
      | zero =>
        simp only [List.getElem?_cons_zero, Option.some.injEq] at hk ht
        subst hk; subst ht
        rw [List.zip_cons_cons, List.filter_cons_of_pos (by simp), List.filter_eq_nil_iff.2]
        · rfl
        · intro b hb
          simp only [List.mem_singleton, decide_eq_true_eq]
          intro he
          exact hn.1 (by rw [← he]; exact List.mem_map_of_mem (List.of_mem_zip hb).1)
      | succ k0 =>
        simp only [List.getElem?_cons_succ] at hk ht
        rw [List.zip_cons_cons, List.filter_cons_of_neg, ih hn.2 hk (by simpa using hl) ht]
        simp only [List.mem_singleton, decide_eq_true_eq]
        intro he
        exact hn.1 (by rw [he]; exact List.mem_map_of_mem (List.mem_of_getElem? hk))

theorem cell_single {V : Type} {axes : List (Axis V)} (hn : (axes.map (·.name)).Nodup) {k0 t : Nat} {sa : Axis V}
    (hk : axes[k0]? = some sa) {idx : List Nat} (hl : idx.length = axes.length) (ht : idx[k0]? = some t) :
    Spec.cell axes [sa.name] idx = t := by
  unfold Spec.cell
  rw [kept_single hn hk, coords_single hn hk hl ht]
  simp [ravel]

theorem axisByName_spec {V : Type} {axes : List (Axis V)} {n : String} {a : Axis V} (h : axisByName axes n = some a) :
    a ∈ axes ∧ a.name = n := by
  unfold axisByName at h
  have hm := List.mem_of_find?_eq_some h
  have hnm := List.find?_some h
  simp only [decide_eq_true_eq] at hnm
  exact ⟨by simpa using hm, hnm⟩

/-- The positions on the shape axis lie between zero (first bin) and one (last bin). -/
theorem c49_positions (centers : List ℝ) (hs : centers.Pairwise (· ≤ ·)) :
    (∀ x ∈ xUnit centers, 0 ≤ x ∧ x ≤ 1) ∧ (centers ≠ [] → (xUnit centers).head? = some 0) ∧
    (1 / 10 ^ 6 ≤ centers.getLastD 0 - centers.headD 0 → (xUnit centers).getLast? = some 1) := by
  have hspan : (0 : ℝ) < max (centers.getLastD 0 - centers.headD 0) (1 / 10 ^ 6) :=
    lt_of_lt_of_le (by norm_num) (le_max_right _ _)
  unfold xUnit
  refine ⟨fun x hx => ?_, fun hne => ?_, fun h => ?_⟩
  · obtain ⟨y, hy, rfl⟩ := List.mem_map.1 hx
    have h1 : centers.headD 0 ≤ y := by
      cases centers with
      | nil => simp at hy
      | cons a l =>
        rw [List.pairwise_cons] at hs
        rcases List.mem_cons.1 hy with rfl | hy
        · exact le_refl _
        · exact hs.1 y hy
    have h2 : y ≤ centers.getLastD 0 := by
      obtain ⟨l, z, rfl⟩ : ∃ l z, centers = l ++ [z] := by
        rcases List.eq_nil_or_concat centers with rfl | ⟨l, z, rfl⟩
        · simp at hy
        · exact ⟨l, z, by simp⟩
      rw [List.pairwise_append] at hs
      rcases List.mem_append.1 hy with hy | hy
      · simpa using hs.2.2 y hy z (by simp)
      · simp at hy; simp [hy]
    refine ⟨div_nonneg (by linarith) hspan.le, ?_⟩
    rw [div_le_one hspan]
    exact le_trans (by linarith) (le_max_left _ _)
  · cases centers with
    | nil => exact absurd rfl hne
    | cons a l => simp
  · rw [List.getLast?_map]
    have hne : centers ≠ [] := by rintro rfl; norm_num at h
    rw [List.getLast?_eq_getLast_of_ne_nil hne, Option.map_some, Option.some.injEq, max_eq_left h]
    have : centers.getLast hne = centers.getLastD 0 := by
      rw [List.getLastD_eq_getLast?, List.getLast?_eq_getLast_of_ne_nil hne]; rfl
    rw [this]
    exact div_self (ne_of_gt (lt_of_lt_of_le (by norm_num) h))

structure ExpBuilt (inp : InData ℝ) (ch : String) (ps : Option (List String)) (shape : String) (cells : List String)
    (slope : Option (List String)) (m : ExpModel) (c : Chan ℝ) (sa : Axis ℝ) (axs sxs : List (Axis ℝ)) : Prop where
  chan : inp.chans.get? ch = some c
  shapeAx : axisByName c.axes shape = some sa
  notShape : ∀ n ∈ cells, n ≠ shape
  look : lookupAxes c.axes cells = .ok axs
  slookup : lookupAxes c.axes (slope.getD cells) = .ok sxs
  mem : ∀ p ∈ Spec.chosen inp ps, p ∈ inp.procs
  eq : m = ⟨ch, c.axes, shape, cells, slope.getD cells, (Spec.chosen inp ps).map fun p => inp.procs.idxOf p,
    (sizes axs).prod, (sizes sxs).prod, (Spec.chosen inp ps).length * ((sizes axs).prod + (sizes sxs).prod),
    (Spec.chosen inp ps).flatMap fun p => cellNames "lnAmpl" p axs ++ cellNames "slope" p sxs, xUnit sa.centers⟩

theorem expInit_built {inp : InData ℝ} {ch : String} {ps : Option (List String)} {shape : String} {cells : List String}
    {slope : Option (List String)} {m : ExpModel} (h : expInit inp ch ps shape cells slope = .ok m) :
    ∃ c sa axs sxs, ExpBuilt inp ch ps shape cells slope m c sa axs sxs := by
  unfold expInit at h
  split at h
  · exact nomatch h
  rename_i c hc
  split at h
  · exact nomatch h
  rename_i sa hsa
  split at h
  · exact nomatch h
  rename_i axs hax
  split at h
  · exact nomatch h
  rename_i hcells
  dsimp only at h
  split at h
  · exact nomatch h
  split at h
  · exact nomatch h
  rename_i sxs hsx
  split at h
  · exact nomatch h
  rename_i ts hts
  split at h
  · exact nomatch h
  cases h
  obtain ⟨h1, h2⟩ := targets_spec hts
  subst h1
  refine ⟨c, sa, axs, sxs, ⟨hc, hsa, ?_, hax, hsx, h2, rfl⟩⟩
  rw [not_not, cellsOk, List.all_eq_true] at hcells
  intro n hn
  simpa using hcells n hn

/-- The factor of a bin and a process: one outside of the channel and for other processes; for the `i`-th selected process
`exp (a + b x)` with the amplitude of the cell, the slope of the group and the position of the bin on the shape axis. -/
theorem c49_exp_rates {inp : InData ℝ} {ch : String} {ps : Option (List String)} {shape : String} {cells : List String}
    {slope : Option (List String)} {m : ExpModel} (h : expInit inp ch ps shape cells slope = .ok m)
    {param : List ℝ} {full : Bool} {r : Rates ℝ} (hr : expCompute inp m param full = .ok r)
    (hk : inp.chans.keys.Nodup) (hp : inp.procs.Nodup) (hts : (Spec.chosen inp ps).Nodup)
    {pre post : List (String × Chan ℝ)} {k : String} {c : Chan ℝ}
    (hact : Spec.active inp full = pre ++ (k, c) :: post) {idx : List Nat}
    (hidx : List.Forall₂ (fun i (a : Axis ℝ) => i < a.size) idx c.axes) {q : Nat} {proc : String}
    (hq : inp.procs[q]? = some proc) :
    r.cols = inp.procs.length ∧ r.rows = Spec.offset (Spec.active inp full) ∧
    ((k ≠ ch ∨ proc ∉ Spec.chosen inp ps) → r.val (Spec.offset pre + ravel (sizes c.axes) idx) q = 1) ∧
    (k = ch → (c.axes.map (·.name)).Nodup → ∀ (k0 t : Nat) (sa : Axis ℝ), c.axes[k0]? = some sa → sa.name = shape →
      idx[k0]? = some t → ∀ i, (Spec.chosen inp ps)[i]? = some proc →
      ∃ a b x, param[i * (m.nCell + m.nSlope) + Spec.cell c.axes cells idx]? = some a ∧
        param[i * (m.nCell + m.nSlope) + m.nCell + Spec.cell c.axes (slope.getD cells) idx]? = some b ∧
        (xUnit sa.centers)[t]? = some x ∧
        r.val (Spec.offset pre + ravel (sizes c.axes) idx) q = Real.exp (a + b * x)) := by
  obtain ⟨c0, sa0, axs, sxs, B⟩ := expInit_built h
  obtain ⟨i1, i2, i3⟩ := idx_spec hp B.mem hq
  have hg := mem_grid_axes.2 hidx
  unfold expCompute at hr
  obtain ⟨h1, h2, h3⟩ := axisCompute_spec hr
  obtain ⟨h4, h5⟩ := h3 pre k c post hact _ (ravel_lt hg) q
  refine ⟨h1, h2, fun hne => h4 ?_, ?_⟩
  · rcases hne with hne | hne
    · left; rw [B.eq]; exact hne
    · right; rw [B.eq]; exact fun hm => hne (i2.1 hm)
  · rintro rfl hn k0 t sa hk0 hsa ht i hi
    have : c = c0 := get?_unique hk B.chan hact
    subst this
    obtain ⟨l, s, e1, e2, e3⟩ := h5 (by rw [B.eq]) (by rw [B.eq]; exact i3 hts) i (by rw [B.eq]; exact (i1 i).2 hi)
    have hsa0 := axisByName_spec B.shapeAx
    have : sa0 = sa := List.inj_on_of_nodup_map hn hsa0.1 (List.mem_of_getElem? hk0) (hsa0.2.trans hsa.symm)
    subst this
    have em : m.axes = c.axes ∧ m.cellNames = cells ∧ m.slopeNames = slope.getD cells ∧ m.shapeAx = sa0.name ∧
        m.xs = xUnit sa0.centers := by rw [B.eq]; exact ⟨rfl, rfl, rfl, hsa.symm, rfl⟩
    obtain ⟨m1, m2, m3, m4, m5⟩ := em
    rw [m1, m2, m3, m4, m5] at e1
    obtain ⟨a, b, x, g1, g2, g3, g4⟩ := (spread3_keep e1).2 idx hg
    rw [e2] at g4
    cases g4
    rw [cell_single hn hk0 (hidx.length_eq) ht] at g3
    exact ⟨a, b, x, slice_some g1, slice_some g2, g3, e3⟩

/-- Every factor of the exponential model is positive. -/
theorem c49_exp_positive {inp : InData ℝ} {ch : String} {ps : Option (List String)} {shape : String} {cells : List String}
    {slope : Option (List String)} {m : ExpModel} (h : expInit inp ch ps shape cells slope = .ok m)
    {param : List ℝ} {full : Bool} {r : Rates ℝ} (hr : expCompute inp m param full = .ok r)
    (hk : inp.chans.keys.Nodup) (hp : inp.procs.Nodup) (hts : (Spec.chosen inp ps).Nodup)
    (hn : ∀ c, inp.chans.get? ch = some c → (c.axes.map (·.name)).Nodup)
    {pre post : List (String × Chan ℝ)} {k : String} {c : Chan ℝ}
    (hact : Spec.active inp full = pre ++ (k, c) :: post) {idx : List Nat}
    (hidx : List.Forall₂ (fun i (a : Axis ℝ) => i < a.size) idx c.axes) {q : Nat} {proc : String}
    (hq : inp.procs[q]? = some proc) : 0 < r.val (Spec.offset pre + ravel (sizes c.axes) idx) q := by
  obtain ⟨-, -, h1, h2⟩ := c49_exp_rates h hr hk hp hts hact hidx hq
  by_cases hsel : k ≠ ch ∨ proc ∉ Spec.chosen inp ps
  · rw [h1 hsel]; norm_num
  · push Not at hsel
    obtain ⟨rfl, hm⟩ := hsel
    obtain ⟨i, hi⟩ := List.getElem?_of_mem hm
    obtain ⟨c0, sa, axs, sxs, B⟩ := expInit_built h
    have : c = c0 := get?_unique hk B.chan hact
    subst this
    obtain ⟨hs1, hs2⟩ := axisByName_spec B.shapeAx
    obtain ⟨k0, hk0⟩ := List.getElem?_of_mem hs1
    have hl : k0 < idx.length := by rw [hidx.length_eq]; exact (List.getElem?_eq_some_iff.1 hk0).1
    obtain ⟨a, b, x, -, -, -, hv⟩ := h2 rfl (hn _ B.chan) k0 _ sa hk0 hs2 (List.getElem?_eq_getElem hl) i hi
    rw [hv]; exact Real.exp_pos _

/-- At the default parameters every factor of the exponential model is one. -/
theorem c49_exp_default {inp : InData ℝ} {ch : String} {ps : Option (List String)} {shape : String} {cells : List String}
    {slope : Option (List String)} {m : ExpModel} (h : expInit inp ch ps shape cells slope = .ok m)
    {full : Bool} {r : Rates ℝ} (hr : expCompute inp m (expDefault m) full = .ok r)
    (hk : inp.chans.keys.Nodup) (hp : inp.procs.Nodup) (hts : (Spec.chosen inp ps).Nodup)
    (hn : ∀ c, inp.chans.get? ch = some c → (c.axes.map (·.name)).Nodup)
    {pre post : List (String × Chan ℝ)} {k : String} {c : Chan ℝ}
    (hact : Spec.active inp full = pre ++ (k, c) :: post) {idx : List Nat}
    (hidx : List.Forall₂ (fun i (a : Axis ℝ) => i < a.size) idx c.axes) {q : Nat} {proc : String}
    (hq : inp.procs[q]? = some proc) : r.val (Spec.offset pre + ravel (sizes c.axes) idx) q = 1 := by
  obtain ⟨-, -, h1, h2⟩ := c49_exp_rates h hr hk hp hts hact hidx hq
  by_cases hsel : k ≠ ch ∨ proc ∉ Spec.chosen inp ps
  · exact h1 hsel
  · push Not at hsel
    obtain ⟨rfl, hm⟩ := hsel
    obtain ⟨i, hi⟩ := List.getElem?_of_mem hm
    obtain ⟨c0, sa, axs, sxs, B⟩ := expInit_built h
    have : c = c0 := get?_unique hk B.chan hact
    subst this
    obtain ⟨hs1, hs2⟩ := axisByName_spec B.shapeAx
    obtain ⟨k0, hk0⟩ := List.getElem?_of_mem hs1
    have hl : k0 < idx.length := by rw [hidx.length_eq]; exact (List.getElem?_eq_some_iff.1 hk0).1
    obtain ⟨a, b, x, ha, hb, -, hv⟩ := h2 rfl (hn _ B.chan) k0 _ sa hk0 hs2 (List.getElem?_eq_getElem hl) i hi
    unfold expDefault at ha hb
    rw [List.getElem?_replicate] at ha hb
    split_ifs at ha hb
    cases ha; cases hb
    rw [hv]; simp

/-- Names of the exponential model, for cell and slope axes in the order of the channel: the amplitude and slope that a bin
uses are named after the process and the cell, and the process and the slope group. -/
theorem c49_exp_names_partial {inp : InData ℝ} {ch : String} {ps : Option (List String)} {shape : String}
    {cells : List String} {slope : Option (List String)} {m : ExpModel} (h : expInit inp ch ps shape cells slope = .ok m)
    {c : Chan ℝ} (hc : inp.chans.get? ch = some c) (hn : (c.axes.map (·.name)).Nodup)
    (hord : cells = (Spec.kept c.axes cells).map (·.name))
    (hord' : slope.getD cells = (Spec.kept c.axes (slope.getD cells)).map (·.name)) {idx : List Nat}
    (hidx : List.Forall₂ (fun i (a : Axis ℝ) => i < a.size) idx c.axes) {i : Nat} {proc : String}
    (hi : (Spec.chosen inp ps)[i]? = some proc) :
    m.params.length = m.npoi ∧
    m.params[i * (m.nCell + m.nSlope) + Spec.cell c.axes cells idx]? =
      some ("lnAmpl_" ++ proc ++ "_" ++ Spec.label (Spec.kept c.axes cells) (Spec.coords c.axes cells idx)) ∧
    m.params[i * (m.nCell + m.nSlope) + m.nCell + Spec.cell c.axes (slope.getD cells) idx]? =
      some ("slope_" ++ proc ++ "_" ++
        Spec.label (Spec.kept c.axes (slope.getD cells)) (Spec.coords c.axes (slope.getD cells) idx)) := by
  obtain ⟨c0, sa, axs, sxs, B⟩ := expInit_built h
  have : c0 = c := Option.some.inj (B.chan.symm.trans hc)
  subst this
  have ha := lookup_eq_kept B.look hn hord
  have hs := lookup_eq_kept B.slookup hn hord'
  have hcm := coords_mem cells (mem_grid_axes.2 hidx)
  have hcs := coords_mem (slope.getD cells) (mem_grid_axes.2 hidx)
  have r1 := ravel_lt hcm
  have r2 := ravel_lt hcs
  have hl : ∀ p, (cellNames "lnAmpl" p axs ++ cellNames "slope" p sxs).length = (sizes axs).prod + (sizes sxs).prod :=
    fun p => by rw [List.length_append, cellNames_length, cellNames_length]
  rw [B.eq]
  dsimp only
  rw [← ha] at hcm r1
  rw [← hs] at hcs r2
  have c1 : Spec.cell c0.axes cells idx = ravel (sizes axs) (Spec.coords c0.axes cells idx) := by rw [ha]; rfl
  have c2 : Spec.cell c0.axes (slope.getD cells) idx = ravel (sizes sxs) (Spec.coords c0.axes (slope.getD cells) idx) := by
    rw [hs]; rfl
  rw [← ha, ← hs]
  refine ⟨?_, ?_, ?_⟩
  · rw [List.length_flatMap]
    simp only [hl]; simp
  · rw [c1, flatMap_uniform_getElem? _ _ _ hl (by omega), hi, Option.bind_some,
      List.getElem?_append_left (by rw [cellNames_length]; omega)]
    exact cellNames_getElem? _ _ _ hcm
  · rw [c2, Nat.add_assoc, flatMap_uniform_getElem? _ _ _ hl (by omega), hi, Option.bind_some,
      List.getElem?_append_right (by rw [cellNames_length]; omega), cellNames_length, Nat.add_sub_cancel_left]
    exact cellNames_getElem? _ _ _ hcs

structure BernBuilt (inp : InData ℝ) (ch : String) (ps : Option (List String)) (shape : String) (cells : List String)
    (m : BernModel) (c : Chan ℝ) (sa : Axis ℝ) (axs : List (Axis ℝ)) : Prop where
  chan : inp.chans.get? ch = some c
  shapeAx : axisByName c.axes shape = some sa
  notShape : ∀ n ∈ cells, n ≠ shape
  look : lookupAxes c.axes cells = .ok axs
  mem : ∀ p ∈ Spec.chosen inp ps, p ∈ inp.procs
  eq : m = ⟨ch, c.axes, shape, cells, (Spec.chosen inp ps).map fun p => inp.procs.idxOf p,
    (sizes axs).prod, (Spec.chosen inp ps).length * 2 * (sizes axs).prod,
    (Spec.chosen inp ps).flatMap fun p => cellNames "c0" p axs ++ cellNames "c1" p axs, xUnit sa.centers⟩

theorem bernInit_built {inp : InData ℝ} {ch : String} {ps : Option (List String)} {shape : String} {cells : List String}
    {m : BernModel} (h : bernInit inp ch ps shape cells = .ok m) :
    ∃ c sa axs, BernBuilt inp ch ps shape cells m c sa axs := by
  unfold bernInit at h
  split at h
  · exact nomatch h
  rename_i c hc
  split at h
  · exact nomatch h
  rename_i sa hsa
  split at h
  · exact nomatch h
  rename_i axs hax
  split at h
  · exact nomatch h
  rename_i hcells
  split at h
  · exact nomatch h
  rename_i ts hts
  split at h
  · exact nomatch h
  cases h
  obtain ⟨h1, h2⟩ := targets_spec hts
  subst h1
  refine ⟨c, sa, axs, ⟨hc, hsa, ?_, hax, h2, rfl⟩⟩
  rw [not_not, cellsOk, List.all_eq_true] at hcells
  intro n hn
  simpa using hcells n hn

/-- The Bernstein model: the factor of a selected process is `c0 (1 - x) + c1 x` with `c0`, `c1` the softplus of the two
parameters of the cell; it is one for other channels and processes. -/
theorem c49_bernstein_rates {inp : InData ℝ} {ch : String} {ps : Option (List String)} {shape : String}
    {cells : List String} {m : BernModel} (h : bernInit inp ch ps shape cells = .ok m)
    {param : List ℝ} {full : Bool} {r : Rates ℝ} (hr : bernCompute inp m param full = .ok r)
    (hk : inp.chans.keys.Nodup) (hp : inp.procs.Nodup) (hts : (Spec.chosen inp ps).Nodup)
    {pre post : List (String × Chan ℝ)} {k : String} {c : Chan ℝ}
    (hact : Spec.active inp full = pre ++ (k, c) :: post) {idx : List Nat}
    (hidx : List.Forall₂ (fun i (a : Axis ℝ) => i < a.size) idx c.axes) {q : Nat} {proc : String}
    (hq : inp.procs[q]? = some proc) :
    r.cols = inp.procs.length ∧ r.rows = Spec.offset (Spec.active inp full) ∧
    ((k ≠ ch ∨ proc ∉ Spec.chosen inp ps) → r.val (Spec.offset pre + ravel (sizes c.axes) idx) q = 1) ∧
    (k = ch → (c.axes.map (·.name)).Nodup → ∀ (k0 t : Nat) (sa : Axis ℝ), c.axes[k0]? = some sa → sa.name = shape →
      idx[k0]? = some t → ∀ i, (Spec.chosen inp ps)[i]? = some proc →
      ∃ a b x, param[i * 2 * m.nCell + Spec.cell c.axes cells idx]? = some a ∧
        param[i * 2 * m.nCell + m.nCell + Spec.cell c.axes cells idx]? = some b ∧
        (xUnit sa.centers)[t]? = some x ∧
        r.val (Spec.offset pre + ravel (sizes c.axes) idx) q =
          Real.log (1 + Real.exp a) * (1 - x) + Real.log (1 + Real.exp b) * x) := by
  obtain ⟨c0, sa0, axs, B⟩ := bernInit_built h
  obtain ⟨i1, i2, i3⟩ := idx_spec hp B.mem hq
  have hg := mem_grid_axes.2 hidx
  unfold bernCompute at hr
  obtain ⟨h1, h2, h3⟩ := axisCompute_spec hr
  obtain ⟨h4, h5⟩ := h3 pre k c post hact _ (ravel_lt hg) q
  refine ⟨h1, h2, fun hne => h4 ?_, ?_⟩
  · rcases hne with hne | hne
    · left; rw [B.eq]; exact hne
    · right; rw [B.eq]; exact fun hm => hne (i2.1 hm)
  · rintro rfl hn k0 t sa hk0 hsa ht i hi
    have : c = c0 := get?_unique hk B.chan hact
    subst this
    obtain ⟨l, s, e1, e2, e3⟩ := h5 (by rw [B.eq]) (by rw [B.eq]; exact i3 hts) i (by rw [B.eq]; exact (i1 i).2 hi)
    have hsa0 := axisByName_spec B.shapeAx
    have : sa0 = sa := List.inj_on_of_nodup_map hn hsa0.1 (List.mem_of_getElem? hk0) (hsa0.2.trans hsa.symm)
    subst this
    have em : m.axes = c.axes ∧ m.cellNames = cells ∧ m.shapeAx = sa0.name ∧
        m.xs = xUnit sa0.centers := by rw [B.eq]; exact ⟨rfl, rfl, hsa.symm, rfl⟩
    obtain ⟨m1, m2, m4, m5⟩ := em
    rw [m1, m2, m4, m5] at e1
    obtain ⟨a, b, x, g1, g2, g3, g4⟩ := (spread3_keep e1).2 idx hg
    rw [e2] at g4
    cases g4
    rw [cell_single hn hk0 (hidx.length_eq) ht] at g3
    rw [List.getElem?_map, Option.map_eq_some_iff] at g1 g2
    obtain ⟨a', g1, rfl⟩ := g1
    obtain ⟨b', g2, rfl⟩ := g2
    exact ⟨a', b', x, slice_some g1, slice_some g2, g3, e3⟩

/-- The factors of the Bernstein model for increasing bin centres: positive, and between the two coefficients of the
cell. -/
theorem c49_bernstein_bounds {inp : InData ℝ} {ch : String} {ps : Option (List String)} {shape : String}
    {cells : List String} {m : BernModel} (h : bernInit inp ch ps shape cells = .ok m)
    {param : List ℝ} {full : Bool} {r : Rates ℝ} (hr : bernCompute inp m param full = .ok r)
    (hk : inp.chans.keys.Nodup) (hp : inp.procs.Nodup) (hts : (Spec.chosen inp ps).Nodup)
    {pre post : List (String × Chan ℝ)} {c : Chan ℝ} (hn : (c.axes.map (·.name)).Nodup)
    (hs : ∀ a ∈ c.axes, a.centers.Pairwise (· ≤ ·))
    (hact : Spec.active inp full = pre ++ (ch, c) :: post) {idx : List Nat}
    (hidx : List.Forall₂ (fun i (a : Axis ℝ) => i < a.size) idx c.axes) {q i : Nat} {proc : String}
    (hq : inp.procs[q]? = some proc) (hi : (Spec.chosen inp ps)[i]? = some proc) :
    ∃ a b, param[i * 2 * m.nCell + Spec.cell c.axes cells idx]? = some a ∧
      param[i * 2 * m.nCell + m.nCell + Spec.cell c.axes cells idx]? = some b ∧
      0 < r.val (Spec.offset pre + ravel (sizes c.axes) idx) q ∧
      min (Real.log (1 + Real.exp a)) (Real.log (1 + Real.exp b)) ≤ r.val (Spec.offset pre + ravel (sizes c.axes) idx) q ∧
      r.val (Spec.offset pre + ravel (sizes c.axes) idx) q ≤
        max (Real.log (1 + Real.exp a)) (Real.log (1 + Real.exp b)) := by
  obtain ⟨-, -, -, h2⟩ := c49_bernstein_rates h hr hk hp hts hact hidx hq
  obtain ⟨c0, sa, axs, B⟩ := bernInit_built h
  have : c = c0 := get?_unique hk B.chan hact
  subst this
  obtain ⟨hs1, hs2⟩ := axisByName_spec B.shapeAx
  obtain ⟨k0, hk0⟩ := List.getElem?_of_mem hs1
  have hl : k0 < idx.length := by rw [hidx.length_eq]; exact (List.getElem?_eq_some_iff.1 hk0).1
  obtain ⟨a, b, x, ha, hb, hx, hv⟩ := h2 rfl hn k0 _ sa hk0 hs2 (List.getElem?_eq_getElem hl) i hi
  refine ⟨a, b, ha, hb, ?_⟩
  rw [hv]
  obtain ⟨x0, x1⟩ := (c49_positions sa.centers (hs sa hs1)).1 x (List.mem_of_getElem? hx)
  have pa : 0 < Real.log (1 + Real.exp a) := Real.log_pos (by have := Real.exp_pos a; linarith)
  have pb : 0 < Real.log (1 + Real.exp b) := Real.log_pos (by have := Real.exp_pos b; linarith)
  generalize Real.log (1 + Real.exp a) = u at *
  generalize Real.log (1 + Real.exp b) = v at *
  have low : min u v ≤ u * (1 - x) + v * x := by
    have h1 := mul_le_mul_of_nonneg_right (min_le_left u v) (sub_nonneg.2 x1)
    have h2 := mul_le_mul_of_nonneg_right (min_le_right u v) x0
    linarith
  refine ⟨lt_of_lt_of_le (lt_min pa pb) low, low, ?_⟩
  have h1 := mul_le_mul_of_nonneg_right (le_max_left u v) (sub_nonneg.2 x1)
  have h2 := mul_le_mul_of_nonneg_right (le_max_right u v) x0
  linarith

/-- At the default parameters every factor of the Bernstein model is one. -/
theorem c49_bernstein_default {inp : InData ℝ} {ch : String} {ps : Option (List String)} {shape : String}
    {cells : List String} {m : BernModel} (h : bernInit inp ch ps shape cells = .ok m)
    {full : Bool} {r : Rates ℝ} (hr : bernCompute inp m (bernDefault m) full = .ok r)
    (hk : inp.chans.keys.Nodup) (hp : inp.procs.Nodup) (hts : (Spec.chosen inp ps).Nodup)
    (hn : ∀ c, inp.chans.get? ch = some c → (c.axes.map (·.name)).Nodup)
    {pre post : List (String × Chan ℝ)} {k : String} {c : Chan ℝ}
    (hact : Spec.active inp full = pre ++ (k, c) :: post) {idx : List Nat}
    (hidx : List.Forall₂ (fun i (a : Axis ℝ) => i < a.size) idx c.axes) {q : Nat} {proc : String}
    (hq : inp.procs[q]? = some proc) : r.val (Spec.offset pre + ravel (sizes c.axes) idx) q = 1 := by
  obtain ⟨-, -, h1, h2⟩ := c49_bernstein_rates h hr hk hp hts hact hidx hq
  by_cases hsel : k ≠ ch ∨ proc ∉ Spec.chosen inp ps
  · exact h1 hsel
  · push Not at hsel
    obtain ⟨rfl, hm⟩ := hsel
    obtain ⟨i, hi⟩ := List.getElem?_of_mem hm
    obtain ⟨c0, sa, axs, B⟩ := bernInit_built h
    have : c = c0 := get?_unique hk B.chan hact
    subst this
    obtain ⟨hs1, hs2⟩ := axisByName_spec B.shapeAx
    obtain ⟨k0, hk0⟩ := List.getElem?_of_mem hs1
    have hl : k0 < idx.length := by rw [hidx.length_eq]; exact (List.getElem?_eq_some_iff.1 hk0).1
    obtain ⟨a, b, x, ha, hb, -, hv⟩ := h2 rfl (hn _ B.chan) k0 _ sa hk0 hs2 (List.getElem?_eq_getElem hl) i hi
    unfold bernDefault at ha hb
    rw [List.getElem?_replicate] at ha hb
    split_ifs at ha hb
    cases ha; cases hb
    have he : (0 : ℝ) < Real.exp 1 - 1 := by have := Real.add_one_lt_exp (x := 1) (by norm_num); linarith
    rw [hv, Real.exp_log he]
    simp

/-- Names of the Bernstein model, for cell axes in the order of the channel. -/
theorem c49_bernstein_names_partial {inp : InData ℝ} {ch : String} {ps : Option (List String)} {shape : String}
    {cells : List String} {m : BernModel} (h : bernInit inp ch ps shape cells = .ok m)
    {c : Chan ℝ} (hc : inp.chans.get? ch = some c) (hn : (c.axes.map (·.name)).Nodup)
    (hord : cells = (Spec.kept c.axes cells).map (·.name)) {idx : List Nat}
    (hidx : List.Forall₂ (fun i (a : Axis ℝ) => i < a.size) idx c.axes) {i : Nat} {proc : String}
    (hi : (Spec.chosen inp ps)[i]? = some proc) :
    m.params.length = m.npoi ∧
    m.params[i * 2 * m.nCell + Spec.cell c.axes cells idx]? =
      some ("c0_" ++ proc ++ "_" ++ Spec.label (Spec.kept c.axes cells) (Spec.coords c.axes cells idx)) ∧
    m.params[i * 2 * m.nCell + m.nCell + Spec.cell c.axes cells idx]? =
      some ("c1_" ++ proc ++ "_" ++ Spec.label (Spec.kept c.axes cells) (Spec.coords c.axes cells idx)) := by
  obtain ⟨c0, sa, axs, B⟩ := bernInit_built h
  have : c0 = c := Option.some.inj (B.chan.symm.trans hc)
  subst this
  have ha := lookup_eq_kept B.look hn hord
  have hcm := coords_mem cells (mem_grid_axes.2 hidx)
  have r1 := ravel_lt hcm
  have hl : ∀ p, (cellNames "c0" p axs ++ cellNames "c1" p axs).length = 2 * (sizes axs).prod :=
    fun p => by rw [List.length_append, cellNames_length, cellNames_length]; omega
  rw [B.eq]
  dsimp only
  rw [← ha] at hcm r1
  have c1 : Spec.cell c0.axes cells idx = ravel (sizes axs) (Spec.coords c0.axes cells idx) := by rw [ha]; rfl
  rw [← ha]
  refine ⟨?_, ?_, ?_⟩
  · rw [List.length_flatMap]
    simp only [hl]; simp [Nat.mul_assoc]
  · rw [c1, Nat.mul_assoc, flatMap_uniform_getElem? _ _ _ hl (by omega), hi, Option.bind_some,
      List.getElem?_append_left (by rw [cellNames_length]; omega)]
    exact cellNames_getElem? _ _ _ hcm
  · rw [c1, Nat.add_assoc, Nat.mul_assoc, flatMap_uniform_getElem? _ _ _ hl (by omega), hi, Option.bind_some,
      List.getElem?_append_right (by rw [cellNames_length]; omega), cellNames_length, Nat.add_sub_cancel_left]
    exact cellNames_getElem? _ _ _ hcm

/-- The exponential model evaluates for every vector of the declared size. -/
theorem c49_exp_evaluates {inp : InData ℝ} {ch : String} {ps : Option (List String)} {shape : String} {cells : List String}
    {slope : Option (List String)} {m : ExpModel} (h : expInit inp ch ps shape cells slope = .ok m)
    (hk : inp.chans.keys.Nodup) {c : Chan ℝ} (hc : inp.chans.get? ch = some c) (hn : (c.axes.map (·.name)).Nodup)
    (hcen : ∀ a ∈ c.axes, a.centers.length = a.size) (hd : cells.Nodup) (hd' : (slope.getD cells).Nodup) (full : Bool)
    (hne : Spec.active inp full ≠ []) (param : List ℝ) (hlen : param.length = m.npoi) :
    ∃ r, expCompute inp m param full = .ok r := by
  obtain ⟨c0, sa, axs, sxs, B⟩ := expInit_built h
  have : c0 = c := Option.some.inj (B.chan.symm.trans hc)
  subst this
  obtain ⟨hs1, hs2⟩ := axisByName_spec B.shapeAx
  obtain ⟨k0, hk0⟩ := List.getElem?_of_mem hs1
  unfold expCompute
  have em : m.axes = c0.axes ∧ m.cellNames = cells ∧ m.slopeNames = slope.getD cells ∧ m.shapeAx = sa.name ∧
      m.xs = xUnit sa.centers ∧ m.nCell = (sizes axs).prod ∧ m.nSlope = (sizes sxs).prod ∧ m.channel = ch ∧
      m.npoi = m.procIdxs.length * (m.nCell + m.nSlope) := by rw [B.eq]; simp [hs2]
  obtain ⟨m1, m2, m3, m4, m5, m6, m7, m8, m9⟩ := em
  dsimp only
  rw [m8]
  refine axisCompute_ok hk B.chan hne fun i hi => ?_
  rw [m1, m2, m3, m4, m5]
  have hle : (i + 1) * (m.nCell + m.nSlope) ≤ param.length := by rw [hlen, m9]; exact Nat.mul_le_mul_right _ hi
  have hle' := hle
  rw [Nat.succ_mul] at hle'
  obtain ⟨u, hu⟩ := spread3_ok (f := fun a b x => Real.exp (a + b * x)) (axes := c0.axes) (na := cells)
    (nb := slope.getD cells) (nx := [sa.name])
    (a := slice param (i * (m.nCell + m.nSlope)) (i * (m.nCell + m.nSlope) + m.nCell))
    (b := slice param (i * (m.nCell + m.nSlope) + m.nCell) ((i + 1) * (m.nCell + m.nSlope))) (x := xUnit sa.centers)
    (by rw [slice_length (by omega), ← lookup_perm B.look hn hd]; omega)
    (by rw [slice_length hle, ← lookup_perm B.slookup hn hd', Nat.succ_mul]; omega)
    (by rw [kept_single hn hk0]; simp [xUnit, sizes, hcen sa hs1])
  exact ⟨u, hu, (spread3_keep hu).1⟩

/-- The Bernstein model evaluates for every vector of the declared size. -/
theorem c49_bernstein_evaluates {inp : InData ℝ} {ch : String} {ps : Option (List String)} {shape : String}
    {cells : List String} {m : BernModel} (h : bernInit inp ch ps shape cells = .ok m)
    (hk : inp.chans.keys.Nodup) {c : Chan ℝ} (hc : inp.chans.get? ch = some c) (hn : (c.axes.map (·.name)).Nodup)
    (hcen : ∀ a ∈ c.axes, a.centers.length = a.size) (hd : cells.Nodup) (full : Bool)
    (hne : Spec.active inp full ≠ []) (param : List ℝ) (hlen : param.length = m.npoi) :
    ∃ r, bernCompute inp m param full = .ok r := by
  obtain ⟨c0, sa, axs, B⟩ := bernInit_built h
  have : c0 = c := Option.some.inj (B.chan.symm.trans hc)
  subst this
  obtain ⟨hs1, hs2⟩ := axisByName_spec B.shapeAx
  obtain ⟨k0, hk0⟩ := List.getElem?_of_mem hs1
  unfold bernCompute
  have em : m.axes = c0.axes ∧ m.cellNames = cells ∧ m.shapeAx = sa.name ∧
      m.xs = xUnit sa.centers ∧ m.nCell = (sizes axs).prod ∧ m.channel = ch ∧
      m.npoi = m.procIdxs.length * 2 * m.nCell := by rw [B.eq]; simp [hs2]
  obtain ⟨m1, m2, m4, m5, m6, m8, m9⟩ := em
  rw [m8]
  refine axisCompute_ok hk B.chan hne fun i hi => ?_
  rw [m1, m2, m4, m5]
  have hle : (i + 1) * 2 * m.nCell ≤ param.length := by
    rw [hlen, m9]; exact Nat.mul_le_mul_right _ (Nat.mul_le_mul_right _ hi)
  have he : (i + 1) * 2 * m.nCell = i * 2 * m.nCell + m.nCell + m.nCell := by ring
  obtain ⟨u, hu⟩ := spread3_ok (f := fun a b x => a * (1 - x) + b * x) (axes := c0.axes) (na := cells)
    (nb := cells) (nx := [sa.name])
    (a := (slice param (i * 2 * m.nCell) (i * 2 * m.nCell + m.nCell)).map softplus)
    (b := (slice param (i * 2 * m.nCell + m.nCell) ((i + 1) * 2 * m.nCell)).map softplus) (x := xUnit sa.centers)
    (by rw [List.length_map, slice_length (by omega), ← lookup_perm B.look hn hd]; omega)
    (by rw [List.length_map, slice_length hle, ← lookup_perm B.look hn hd]; omega)
    (by rw [kept_single hn hk0]; simp [xUnit, sizes, hcen sa hs1])
  exact ⟨u, hu, (spread3_keep hu).1⟩

/-! ### a case, and violations -/

namespace Ex

/-- two channels: `a` with axes eta (2 bins) and m (3 bins), the masked channel `b`, and `c` with one axis -/
noncomputable def inp : InData ℝ :=
  ⟨["sig", "bkg"],
   [("c", ⟨[⟨"y", 2, 2, [0, 1, 2], [1 / 2, 3 / 2]⟩], 0, false, false⟩),
    ("a", ⟨[⟨"eta", 2, 2, [0, 1, 2], [1 / 2, 3 / 2]⟩, ⟨"m", 3, 3, [0, 1, 2, 3], [1 / 2, 3 / 2, 5 / 2]⟩], 2, false, false⟩),
    ("b", ⟨[⟨"y", 2, 2, [0, 1, 2], [1 / 2, 3 / 2]⟩], 8, false, true⟩)], 8, 10, fun _ _ => 1⟩

/-- the hypotheses are met: the models exist, evaluate, and bin (1, 2) of channel `a` is in the second position -/
example : (∃ m, normInit inp "a" (some ["bkg"]) ["eta"] [("norm_bkg_eta1", 4)] = .ok m ∧
      ∃ r, normCompute inp m [2, 3] false = .ok r) ∧
    (∃ m, expInit inp "a" none "m" ["eta"] none = .ok m ∧ ∃ r, expCompute inp m [1, 2, 3, 4, 5, 6, 7, 8] false = .ok r) ∧
    (∃ m, bernInit inp "a" (some ["bkg"]) "m" ["eta"] = .ok m ∧ ∃ r, bernCompute inp m [1, 2, 3, 4] false = .ok r) ∧
    inp.chans.keys.Nodup ∧ inp.procs.Nodup ∧
    (∃ pre c post, Spec.active inp false = pre ++ ("a", c) :: post ∧ pre ≠ [] ∧ (c.axes.map (·.name)).Nodup ∧
      List.Forall₂ (fun i (a : Axis ℝ) => i < a.size) [1, 2] c.axes ∧
      ["eta"] = (Spec.kept c.axes ["eta"]).map (·.name)) := by
  have hk : inp.chans.keys.Nodup := by decide
  have hne : Spec.active inp false ≠ [] := by
    simp [inp, Spec.active]
  refine ⟨?_, ?_, ?_, hk, by decide, [_], _, [], rfl, by simp, by decide, by simp, rfl⟩
  · exact ⟨_, rfl, c49_norm_evaluates (ch := "a") (ps := some ["bkg"]) (req := ["eta"]) (expect := [("norm_bkg_eta1", 4)])
      rfl hk (fun c hc => by cases hc; decide) (by decide) false hne [2, 3] rfl⟩
  · exact ⟨_, rfl, c49_exp_evaluates (ch := "a") (ps := none) (shape := "m") (cells := ["eta"]) (slope := none) rfl hk
      (c := ⟨_, _, _, _⟩) rfl (by decide) (by simp) (by decide) (by decide) false hne _ rfl⟩
  · exact ⟨_, rfl, c49_bernstein_evaluates (ch := "a") (ps := some ["bkg"]) (shape := "m") (cells := ["eta"]) rfl hk
      (c := ⟨_, _, _, _⟩) rfl (by decide) (by simp) (by decide) false hne _ rfl⟩

end Ex

/-- Axes requested in another order than that of the channel: the parameter that the bin (0, 1) uses is named after the
cell of another bin. -/
theorem c49_axis_order_violated :
    ∃ (m : NormModel) (c : Chan ℝ), normInit Ex.inp "a" (some ["bkg"]) ["m", "eta"] [] = .ok m ∧
      Ex.inp.chans.get? "a" = some c ∧
      (∀ (param : List ℝ) (r : Rates ℝ), normCompute Ex.inp m param false = .ok r →
        ∃ x, param[1]? = some x ∧ r.val (2 + ravel [2, 3] [0, 1]) 1 = x ^ 2) ∧
      m.params[1]? = some "norm_bkg_m0_eta1" ∧
      Spec.label (Spec.kept c.axes ["m", "eta"]) (Spec.coords c.axes ["m", "eta"] [0, 1]) = "eta0_m1" := by
  have h : ∃ m, normInit Ex.inp "a" (some ["bkg"]) ["m", "eta"] [] = .ok m ∧ m.nCell = 6 ∧
    m.params[1]? = some "norm_bkg_m0_eta1" := ⟨_, rfl, rfl, rfl⟩
  obtain ⟨m, hm, hcell, hname⟩ := h
  refine ⟨m, ⟨_, _, _, _⟩, hm, rfl, fun param r hr => ?_, hname, rfl⟩
  obtain ⟨x, h1, h2⟩ := (c49_norm_rates hm hr (by decide) (by decide) (by decide) (pre := [_]) (k := "a") (post := []) rfl
    (idx := [0, 1]) (by simp) (q := 1) (proc := "bkg") rfl).2.2.2 rfl 0 rfl
  refine ⟨x, ?_, h2⟩
  rw [hcell] at h1
  exact h1

/-- A process named twice gets the sum of the two corrections: the factor can be negative. -/
theorem c49_duplicate_process_violated :
    ∃ (m : NormModel) (r : Rates ℝ), normInit Ex.inp "a" (some ["bkg", "bkg"]) ["eta"] [] = .ok m ∧
      normCompute Ex.inp m [1 / 2, 1 / 2, 1 / 2, 1 / 2] false = .ok r ∧ r.val 2 1 < 0 := by
  refine ⟨_, _, rfl, rfl, ?_⟩
  show (1 : ℝ) + ((1 / 2) ^ 2 - 1) * (if (1 : Nat) = 1 then 1 else 0) + ((1 / 2) ^ 2 - 1) * (if (1 : Nat) = 1 then 1 else 0) < 0
  norm_num

/-- A channel with flow bins: the model counts the bins without them, so the factors do not match the bin vector. -/
theorem c49_flow_violated :
    ∃ (inp : InData ℝ) (m : NormModel), normInit inp "a" none ["eta"] [] = .ok m ∧
      inp.nbins = (inp.chans.map fun e => e.2.shape.prod).sum ∧
      ∀ (param : List ℝ) (r : Rates ℝ), normCompute inp m param false = .ok r → r.rows ≠ inp.nbins := by
  refine ⟨⟨["sig"], [("a", ⟨[⟨"eta", 2, 4, [], []⟩], 0, true, false⟩)], 4, 4, fun _ _ => 1⟩, _, rfl, rfl, ?_⟩
  intro param r hr
  have := (axisCompute_spec hr).2.1
  rw [this]
  decide

end Verif.AxisModels
