import Verif.Model.Workspace
import Verif.Lemmas.Py
import Mathlib.Algebra.BigOperators.Group.List.Basic
import Mathlib.Data.List.Nodup
import Mathlib.Data.Rat.Defs

/-
C54: histograms of the channels in the results file (rabbit/workspace.py).

Specification: a vector is cut into consecutive pieces, one per channel; `Spec.cut` does the cutting.
-/

namespace Verif.Workspace

open Verif.ABCD Verif.Grid Verif.Mappings

variable {V α : Type}

namespace Spec

/-- consecutive pieces of the given lengths -/
def cut : List Nat → List α → List (List α)
  | [], _ => []
  | n :: ns, l => l.take n :: cut ns (l.drop n)

/-- the numbers of bins of a channel, with flow bins when the channel has them; a channel without axes has one bin -/
def bins (i : ChInfo V) : List Nat :=
  match i.axes, i.flow with
  | [], _ => [1]
  | axs, true => axs.map (·.extent)
  | axs, false => axs.map (·.size)

/-- entries of the vector that belong to the channel -/
def width (i : ChInfo V) : Nat := (bins i).prod

/-- the channels that have data -/
def visible (d : Dict String (ChInfo V)) : Dict String (ChInfo V) := d.filter fun kc => !kc.2.masked

end Spec

/-- C54.  Pieces of consecutive segments: together they are the whole vector, in order, each with its own length. -/
theorem c54_cut (ns : List Nat) (l : List α) (h : l.length = ns.sum) :
    (Spec.cut ns l).flatten = l ∧ (Spec.cut ns l).map List.length = ns := by
  induction ns generalizing l with
  | nil =>
    have : l = [] := List.length_eq_zero_iff.1 (by simpa using h)
    subst this
    exact ⟨rfl, rfl⟩
  | cons n ns ih =>
    rw [List.sum_cons] at h
    obtain ⟨h1, h2⟩ := ih (l.drop n) (by rw [List.length_drop]; omega)
    constructor
    · rw [Spec.cut, List.flatten_cons, h1, List.take_append_drop]
    · rw [Spec.cut, List.map_cons, h2, List.length_take]
      congr 1
      omega

/-! ## the loop -/

/-- the channels that are not passed over, with their first entries -/
def pieces (size : ChInfo V → Nat) (skip : ChInfo V → Bool) : Dict String (ChInfo V) → Nat → List (String × ChInfo V × Nat)
  | [], _ => []
  | (ch, i) :: r, start =>
    if skip i then pieces size skip r start else (ch, i, start) :: pieces size skip r (start + size i)

theorem loop_ok (mk name : String) (size : ChInfo V → Nat) (skip : ChInfo V → Bool) (make : ChInfo V → Nat → Nat → Res α)
    (h : ChInfo V → Nat → α) (info : Dict String (ChInfo V)) (start : Nat) (st : Store α)
    (hm : ∀ p ∈ pieces size skip info start, make p.2.1 p.2.2 (p.2.2 + size p.2.1) = .ok (h p.2.1 p.2.2)) :
    loop mk name size skip make info start st =
      .ok ((pieces size skip info start).foldl (fun st p => Dict.set st (mk, p.1, name) (h p.2.1 p.2.2)) st) := by
  induction info generalizing start st with
  | nil => rfl
  | cons a info ih =>
    obtain ⟨ch, i⟩ := a
    unfold loop
    simp only [pieces] at hm ⊢
    by_cases hs : skip i = true
    · rw [if_pos hs] at hm
      simp only [if_pos hs]
      exact ih _ _ hm
    · rw [if_neg hs] at hm
      simp only [if_neg hs]
      have h0 := hm _ List.mem_cons_self
      dsimp only at h0
      rw [h0]
      dsimp only
      rw [List.foldl_cons]
      exact ih _ _ fun p hp => hm p (List.mem_cons_of_mem _ hp)

theorem pieces_fst (size : ChInfo V → Nat) (skip : ChInfo V → Bool) (info : Dict String (ChInfo V)) (start : Nat) :
    (pieces size skip info start).map (fun p => (p.1, p.2.1)) = info.filter fun kc => !skip kc.2 := by
  induction info generalizing start with
  | nil => rfl
  | cons a info ih =>
    obtain ⟨ch, i⟩ := a
    simp only [pieces]
    by_cases hs : skip i = true
    · rw [if_pos hs, ih, List.filter_cons_of_neg (by simp [hs])]
    · rw [if_neg hs, List.map_cons, ih, List.filter_cons_of_pos (by simp [hs])]

theorem slice_eq (l : List α) (s n : Nat) : slice l s (s + n) = (l.drop s).take n := by
  unfold slice
  rw [List.drop_take]
  congr 1
  omega

theorem pieces_slice (size : ChInfo V → Nat) (skip : ChInfo V → Bool) (info : Dict String (ChInfo V)) (start : Nat) (l : List α) :
    (pieces size skip info start).map (fun p => slice l p.2.2 (p.2.2 + size p.2.1)) =
      Spec.cut ((info.filter fun kc => !skip kc.2).map fun kc => size kc.2) (l.drop start) := by
  induction info generalizing start with
  | nil => rfl
  | cons a info ih =>
    obtain ⟨ch, i⟩ := a
    simp only [pieces]
    by_cases hs : skip i = true
    · rw [if_pos hs, ih, List.filter_cons_of_neg (by simp [hs])]
    · rw [if_neg hs, List.map_cons, ih, List.filter_cons_of_pos (by simp [hs]), List.map_cons, Spec.cut, slice_eq, List.drop_drop]

theorem get?_foldl (mk name : String) (h : String × ChInfo V × Nat → α) (ps : List (String × ChInfo V × Nat)) (st : Store α)
    (hn : (ps.map (·.1)).Nodup) :
    (∀ p ∈ ps, Dict.get? (ps.foldl (fun st p => Dict.set st (mk, p.1, name) (h p)) st) (mk, p.1, name) = some (h p)) ∧
    ∀ key, (∀ p ∈ ps, key ≠ (mk, p.1, name)) →
      Dict.get? (ps.foldl (fun st p => Dict.set st (mk, p.1, name) (h p)) st) key = Dict.get? st key := by
  induction ps generalizing st with
  | nil => exact ⟨by simp, fun _ _ => rfl⟩
  | cons p ps ih =>
    rw [List.map_cons, List.nodup_cons] at hn
    obtain ⟨h1, h2⟩ := ih (Dict.set st (mk, p.1, name) (h p)) hn.2
    refine ⟨?_, ?_⟩
    · intro q hq
      rw [List.foldl_cons]
      rcases List.mem_cons.1 hq with rfl | hq
      · rw [h2 _ (fun r hr he => hn.1 ?_), Dict.get?_set, if_pos rfl]
        have : q.1 = r.1 := (Prod.mk.inj (Prod.mk.inj he).2).1
        rw [this]
        exact List.mem_map_of_mem (f := fun p : String × ChInfo V × Nat => p.1) hr
      · exact h1 q hq
    · intro key hk
      rw [List.foldl_cons, h2 key fun r hr => hk r (List.mem_cons_of_mem _ hr), Dict.get?_set,
        if_neg (fun he => hk p List.mem_cons_self he.symm)]

/-- the loop with all its histograms made -/
theorem loop_spec (mk name : String) (size : ChInfo V → Nat) (skip : ChInfo V → Bool) (make : ChInfo V → Nat → Nat → Res α)
    (h : ChInfo V → Nat → α) (info : Dict String (ChInfo V)) (st : Store α) (hk : (Dict.keys info).Nodup)
    (hm : ∀ p ∈ pieces size skip info 0, make p.2.1 p.2.2 (p.2.2 + size p.2.1) = .ok (h p.2.1 p.2.2)) :
    ∃ st', loop mk name size skip make info 0 st = .ok st' ∧
      (∀ p ∈ pieces size skip info 0, Dict.get? st' (mk, p.1, name) = some (h p.2.1 p.2.2)) ∧
      ∀ key, (∀ kc ∈ info, skip kc.2 = false → key ≠ (mk, kc.1, name)) → Dict.get? st' key = Dict.get? st key := by
  refine ⟨_, loop_ok mk name size skip make h info 0 st hm, ?_⟩
  have hsub := pieces_fst size skip info 0
  have hn : ((pieces size skip info 0).map (·.1)).Nodup := by
    have : (pieces size skip info 0).map (·.1) = ((pieces size skip info 0).map fun p => (p.1, p.2.1)).map Prod.fst := by
      rw [List.map_map]; rfl
    rw [this, hsub]
    exact hk.sublist (List.filter_sublist.map _)
  obtain ⟨h1, h2⟩ := get?_foldl mk name (fun p => h p.2.1 p.2.2) (pieces size skip info 0) st hn
  refine ⟨h1, fun key hkey => h2 key fun p hp => ?_⟩
  have : (p.1, p.2.1) ∈ info.filter fun kc => !skip kc.2 := by
    rw [← hsub]
    exact List.mem_map_of_mem (f := fun p : String × ChInfo V × Nat => (p.1, p.2.1)) hp
  rw [List.mem_filter] at this
  exact hkey _ this.1 (by simpa using this.2)

theorem bins_flow (i : ChInfo V) : binsOf i.flow i = Spec.bins i ∧ sizeOf i.flow i = Spec.width i := by
  unfold Spec.width Spec.bins binsOf sizeOf
  cases i.axes with
  | nil => cases i.flow <;> simp
  | cons a axs => cases i.flow <;> simp

theorem pieces_get (size : ChInfo V → Nat) (skip : ChInfo V → Bool) (info : Dict String (ChInfo V)) (start k : Nat) (ch : String)
    (i : ChInfo V) (h : (info.filter fun kc => !skip kc.2)[k]? = some (ch, i)) :
    ∃ p, (pieces size skip info start)[k]? = some p ∧ p.1 = ch ∧ p.2.1 = i := by
  rw [← pieces_fst size skip info start, List.getElem?_map, Option.map_eq_some_iff] at h
  obtain ⟨p, hp, he⟩ := h
  exact ⟨p, hp, (Prod.mk.inj he).1, (Prod.mk.inj he).2⟩

theorem slice_of_piece (size : ChInfo V → Nat) (skip : ChInfo V → Bool) (info : Dict String (ChInfo V)) (k : Nat)
    (p : String × ChInfo V × Nat) (hp : (pieces size skip info 0)[k]? = some p) (l : List α) :
    (Spec.cut ((info.filter fun kc => !skip kc.2).map fun kc => size kc.2) l)[k]? = some (slice l p.2.2 (p.2.2 + size p.2.1)) := by
  have := pieces_slice size skip info 0 l
  rw [List.drop_zero] at this
  rw [← this, List.getElem?_map, hp]
  rfl

theorem piece_length (size : ChInfo V → Nat) (skip : ChInfo V → Bool) (info : Dict String (ChInfo V)) (l : List α)
    (hl : l.length = ((info.filter fun kc => !skip kc.2).map fun kc => size kc.2).sum) (p : String × ChInfo V × Nat)
    (hp : p ∈ pieces size skip info 0) : (slice l p.2.2 (p.2.2 + size p.2.1)).length = size p.2.1 := by
  obtain ⟨k, hk, rfl⟩ := List.mem_iff_getElem.1 hp
  have hp' := List.getElem?_eq_getElem hk
  have h1 := slice_of_piece size skip info k _ hp' l
  have h2 := (c54_cut _ l hl).2
  have h3 : ((Spec.cut ((info.filter fun kc => !skip kc.2).map fun kc => size kc.2) l).map List.length)[k]? =
      some (slice l (pieces size skip info 0)[k].2.2 ((pieces size skip info 0)[k].2.2 + size (pieces size skip info 0)[k].2.1)).length := by
    rw [List.getElem?_map, h1]; rfl
  rw [h2] at h3
  have h4 : ((info.filter fun kc => !skip kc.2).map fun kc => size kc.2)[k]? = some (size (pieces size skip info 0)[k].2.1) := by
    rw [← pieces_fst size skip info 0, List.getElem?_map, List.getElem?_map, hp']; rfl
  rw [h4] at h3
  exact (Option.some.inj h3).symm

/-! ## the histograms -/

/-- C54.  Expected histograms: when the vector has as many entries as the channels have bins, every channel's histogram is
stored under its own name with its own axes, the `k`-th channel gets the `k`-th of the consecutive pieces of the vector,
and nothing else in the file changes. -/
theorem c54_expected (m : Mp V) (hk : (Dict.keys m.info).Nodup) (name : String) (vals : List α) (st : Store (Hist α))
    (hl : vals.length = (m.info.map fun kc => Spec.width kc.2).sum) :
    ∃ st', addExpected m name vals st = .ok st' ∧
      (∀ (k : Nat) (ch : String) (i : ChInfo V), m.info[k]? = some (ch, i) →
        ∃ v, (Spec.cut (m.info.map fun kc => Spec.width kc.2) vals)[k]? = some v ∧
          Dict.get? st' (m.key, ch, name) = some ⟨Spec.bins i, v⟩) ∧
      ∀ key, (∀ ch ∈ Dict.keys m.info, key ≠ (m.key, ch, name)) → Dict.get? st' key = Dict.get? st key := by
  have hfilter : (m.info.filter fun kc => !(fun _ : ChInfo V => false) kc.2) = m.info := by simp
  have hsz : (fun kc : String × ChInfo V => sizeOf kc.2.flow kc.2) = fun kc => Spec.width kc.2 :=
    funext fun kc => (bins_flow kc.2).2
  obtain ⟨st', h1, h2, h3⟩ := loop_spec m.key name (fun i => sizeOf i.flow i) (fun _ => false)
    (fun i start stop => fill (binsOf i.flow i) (slice vals start stop))
    (fun i start => (⟨Spec.bins i, slice vals start (start + sizeOf i.flow i)⟩ : Hist α)) m.info st hk (by
      intro p hp
      have := piece_length (fun i : ChInfo V => sizeOf i.flow i) (fun _ => false) m.info vals (by rw [hfilter, hsz]; exact hl) p hp
      unfold fill
      rw [this, (bins_flow p.2.1).1, (bins_flow p.2.1).2]
      exact if_pos rfl)
  refine ⟨st', h1, ?_, ?_⟩
  · intro k ch i hki
    obtain ⟨p, hp, rfl, rfl⟩ := pieces_get (fun i : ChInfo V => sizeOf i.flow i) (fun _ => false) m.info 0 k ch i (by rw [hfilter]; exact hki)
    have hs := slice_of_piece _ _ m.info k p hp vals
    rw [hfilter, hsz] at hs
    exact ⟨_, hs, h2 p (List.mem_of_getElem? hp)⟩
  · intro key hkey
    exact h3 key fun kc hkc _ => hkey _ (List.mem_map_of_mem (f := Prod.fst) hkc)

/-- C54.  Observed histograms: masked channels get none and use up no entry of the vector; the other channels get the
consecutive pieces.  Holds for channels without flow bins (see `c54_flow_violated`). -/
theorem c54_observed (m : Mp V) (hk : (Dict.keys m.info).Nodup) (hf : ∀ kc ∈ Spec.visible m.info, kc.2.flow = false)
    (name : String) (vals : List α) (st : Store (Hist α))
    (hl : vals.length = ((Spec.visible m.info).map fun kc => Spec.width kc.2).sum) :
    ∃ st', addObserved m name vals st = .ok st' ∧
      (∀ (k : Nat) (ch : String) (i : ChInfo V), (Spec.visible m.info)[k]? = some (ch, i) →
        ∃ v, (Spec.cut ((Spec.visible m.info).map fun kc => Spec.width kc.2) vals)[k]? = some v ∧
          Dict.get? st' (m.key, ch, name) = some ⟨Spec.bins i, v⟩) ∧
      ∀ key, (∀ ch ∈ Dict.keys (Spec.visible m.info), key ≠ (m.key, ch, name)) → Dict.get? st' key = Dict.get? st key := by
  have hb : ∀ i : ChInfo V, i.flow = false → binsOf false i = Spec.bins i ∧ sizeOf false i = Spec.width i :=
    fun i hi => hi ▸ bins_flow i
  have hsz : (Spec.visible m.info).map (fun kc => sizeOf false kc.2) = (Spec.visible m.info).map fun kc => Spec.width kc.2 :=
    List.map_congr_left fun kc hkc => (hb kc.2 (hf kc hkc)).2
  have hmem : ∀ p ∈ pieces (fun i : ChInfo V => sizeOf false i) (·.masked) m.info 0, p.2.1.flow = false := by
    intro p hp
    have : (p.1, p.2.1) ∈ Spec.visible m.info := by
      have := pieces_fst (fun i : ChInfo V => sizeOf false i) (·.masked) m.info 0
      unfold Spec.visible
      rw [← this]
      exact List.mem_map_of_mem (f := fun p : String × ChInfo V × Nat => (p.1, p.2.1)) hp
    exact hf _ this
  obtain ⟨st', h1, h2, h3⟩ := loop_spec m.key name (fun i => sizeOf false i) (·.masked)
    (fun i start stop => fill (binsOf false i) (slice vals start stop))
    (fun i start => (⟨Spec.bins i, slice vals start (start + sizeOf false i)⟩ : Hist α)) m.info st hk (by
      intro p hp
      have := piece_length (fun i : ChInfo V => sizeOf false i) (·.masked) m.info vals (by rw [hl, ← hsz]; rfl) p hp
      unfold fill
      rw [this, (hb _ (hmem p hp)).1, (hb _ (hmem p hp)).2]
      exact if_pos rfl)
  refine ⟨st', h1, ?_, ?_⟩
  · intro k ch i hki
    obtain ⟨p, hp, rfl, rfl⟩ := pieces_get (fun i : ChInfo V => sizeOf false i) (·.masked) m.info 0 k ch i hki
    have hs := slice_of_piece _ _ m.info k p hp vals
    rw [show ((m.info.filter fun kc => !kc.2.masked).map fun kc => sizeOf false kc.2) = _ from hsz] at hs
    exact ⟨_, hs, h2 p (List.mem_of_getElem? hp)⟩
  · intro key hkey
    refine h3 key fun kc hkc hs => hkey _ ?_
    exact List.mem_map_of_mem (f := Prod.fst) (List.mem_filter.2 ⟨hkc, by simp [hs]⟩)

/-- C54.  Covariance matrices of the data: every channel that has data gets its own diagonal block, rows and columns cut
in the same places as the vectors. -/
theorem c54_observed_cov (m : Mp V) (hk : (Dict.keys m.info).Nodup) (hf : ∀ kc ∈ Spec.visible m.info, kc.2.flow = false)
    (name : String) (cov : List (List α)) (st : Store (Hist α))
    (hl : cov.length = ((Spec.visible m.info).map fun kc => Spec.width kc.2).sum)
    (hr : ∀ row ∈ cov, row.length = ((Spec.visible m.info).map fun kc => Spec.width kc.2).sum) :
    ∃ st', addObservedCov m name cov st = .ok st' ∧
      (∀ (k : Nat) (ch : String) (i : ChInfo V), (Spec.visible m.info)[k]? = some (ch, i) →
        ∃ rows, (Spec.cut ((Spec.visible m.info).map fun kc => Spec.width kc.2) cov)[k]? = some rows ∧
          Dict.get? st' (m.key, ch, name) = some ⟨Spec.bins i ++ Spec.bins i,
            (rows.map fun row => (Spec.cut ((Spec.visible m.info).map fun kc => Spec.width kc.2) row).getD k []).flatten⟩) ∧
      ∀ key, (∀ ch ∈ Dict.keys (Spec.visible m.info), key ≠ (m.key, ch, name)) → Dict.get? st' key = Dict.get? st key := by
  have hb : ∀ i : ChInfo V, i.flow = false → binsOf false i = Spec.bins i ∧ sizeOf false i = Spec.width i :=
    fun i hi => hi ▸ bins_flow i
  have hsz : (Spec.visible m.info).map (fun kc => sizeOf false kc.2) = (Spec.visible m.info).map fun kc => Spec.width kc.2 :=
    List.map_congr_left fun kc hkc => (hb kc.2 (hf kc hkc)).2
  have hmem : ∀ p ∈ pieces (fun i : ChInfo V => sizeOf false i) (·.masked) m.info 0, p.2.1.flow = false := by
    intro p hp
    have : (p.1, p.2.1) ∈ Spec.visible m.info := by
      have := pieces_fst (fun i : ChInfo V => sizeOf false i) (·.masked) m.info 0
      unfold Spec.visible
      rw [← this]
      exact List.mem_map_of_mem (f := fun p : String × ChInfo V × Nat => (p.1, p.2.1)) hp
    exact hf _ this
  obtain ⟨st', h1, h2, h3⟩ := loop_spec m.key name (fun i => sizeOf false i) (·.masked)
    (fun i start stop => fill (binsOf false i ++ binsOf false i) ((slice cov start stop).map (slice · start stop)).flatten)
    (fun i start => (⟨Spec.bins i ++ Spec.bins i,
      ((slice cov start (start + sizeOf false i)).map (slice · start (start + sizeOf false i))).flatten⟩ : Hist α)) m.info st hk (by
      intro p hp
      have hlen := piece_length (fun i : ChInfo V => sizeOf false i) (·.masked) m.info cov (by rw [hl, ← hsz]; rfl) p hp
      have hrow : ∀ row ∈ slice cov p.2.2 (p.2.2 + sizeOf false p.2.1),
          (slice row p.2.2 (p.2.2 + sizeOf false p.2.1)).length = sizeOf false p.2.1 := by
        intro row hrow
        have : row ∈ cov := List.mem_of_mem_take (List.mem_of_mem_drop hrow)
        exact piece_length (fun i : ChInfo V => sizeOf false i) (·.masked) m.info row (by rw [hr row this, ← hsz]; rfl) p hp
      unfold fill
      have hflat : (((slice cov p.2.2 (p.2.2 + sizeOf false p.2.1)).map (slice · p.2.2 (p.2.2 + sizeOf false p.2.1))).flatten).length =
          sizeOf false p.2.1 * sizeOf false p.2.1 := by
        rw [List.length_flatten, List.map_map]
        have : (slice cov p.2.2 (p.2.2 + sizeOf false p.2.1)).map (List.length ∘ (slice · p.2.2 (p.2.2 + sizeOf false p.2.1))) =
            (slice cov p.2.2 (p.2.2 + sizeOf false p.2.1)).map fun _ => sizeOf false p.2.1 :=
          List.map_congr_left fun row hr => hrow row hr
        rw [this, List.map_const', List.sum_replicate_nat, hlen]
      rw [hflat, (hb _ (hmem p hp)).1, (hb _ (hmem p hp)).2, List.prod_append]
      exact if_pos rfl)
  refine ⟨st', h1, ?_, ?_⟩
  · intro k ch i hki
    obtain ⟨p, hp, rfl, rfl⟩ := pieces_get (fun i : ChInfo V => sizeOf false i) (·.masked) m.info 0 k ch i hki
    have hs := slice_of_piece _ _ m.info k p hp cov
    rw [show ((m.info.filter fun kc => !kc.2.masked).map fun kc => sizeOf false kc.2) = _ from hsz] at hs
    refine ⟨_, hs, (h2 p (List.mem_of_getElem? hp)).trans ?_⟩
    congr 3
    apply List.map_congr_left
    intro row _
    have hs := slice_of_piece _ _ m.info k p hp row
    rw [show ((m.info.filter fun kc => !kc.2.masked).map fun kc => sizeOf false kc.2) = _ from hsz] at hs
    rw [List.getD_eq_getElem?_getD, hs]
    rfl
  · intro key hkey
    refine h3 key fun kc hkc hs => hkey _ ?_
    exact List.mem_map_of_mem (f := Prod.fst) (List.mem_filter.2 ⟨hkc, by simp [hs]⟩)

theorem expected_short (mk name : String) (vals : List α) (info : Dict String (ChInfo V)) (start : Nat) (st : Store (Hist α))
    (hs : start ≤ vals.length) (hl : vals.length < start + (info.map fun kc => Spec.width kc.2).sum) :
    loop mk name (fun i => sizeOf i.flow i) (fun _ => false)
      (fun i start stop => fill (binsOf i.flow i) (slice vals start stop)) info start st = .error .value := by
  induction info generalizing start st with
  | nil => simp at hl; omega
  | cons a info ih =>
    obtain ⟨ch, i⟩ := a
    unfold loop
    simp only [Bool.false_eq_true, if_false]
    rw [List.map_cons, List.sum_cons] at hl
    dsimp only at hl
    rw [(bins_flow i).1, (bins_flow i).2, slice_eq]
    unfold fill
    have hlen : ((vals.drop start).take (Spec.width i)).length = min (Spec.width i) (vals.length - start) := by
      rw [List.length_take, List.length_drop]
    by_cases h : start + Spec.width i ≤ vals.length
    · rw [if_pos (by rw [hlen]; show min _ _ = Spec.width i; omega)]
      dsimp only
      exact ih _ _ h (by omega)
    · rw [if_neg (by rw [hlen]; show ¬ min _ _ = Spec.width i; omega)]

/-- C54.  A vector with fewer entries than the channels have bins is refused: no histogram is silently shifted or
shortened. -/
theorem c54_short (m : Mp V) (name : String) (vals : List α) (st : Store (Hist α))
    (hl : vals.length < (m.info.map fun kc => Spec.width kc.2).sum) : addExpected m name vals st = .error .value :=
  expected_short m.key name vals m.info 0 st (Nat.zero_le _) (by omega)

/-- C54.  The ranges that the reader computes for the channels of the input are those of the stored histograms: piece `k`
of any vector over all bins is its slice between the recorded bounds of channel `k`. -/
theorem c54_reader (info : Dict String (ChInfo V)) (vals : List α) (k : Nat) (ch : String) (i : ChInfo V)
    (h : info[k]? = some (ch, i)) :
    ∃ a b, (chanRanges info 0)[k]? = some (ch, a, b) ∧ b = a + Spec.width i ∧
      (Spec.cut (info.map fun kc => Spec.width kc.2) vals)[k]? = some (slice vals a b) := by
  have key : ∀ (info : Dict String (ChInfo V)) (s k : Nat), info[k]? = some (ch, i) →
      ∃ a b, (chanRanges info s)[k]? = some (ch, a, b) ∧ b = a + Spec.width i ∧
      (Spec.cut (info.map fun kc => Spec.width kc.2) (vals.drop s))[k]? = some (slice vals a b) := by
    intro info
    induction info with
    | nil => intro s k h; simp at h
    | cons x info ih =>
      obtain ⟨c, j⟩ := x
      intro s k h
      cases k with
      | zero =>
        simp only [List.getElem?_cons_zero, Option.some.injEq, Prod.mk.injEq] at h
        obtain ⟨rfl, rfl⟩ := h
        refine ⟨s, s + Spec.width j, ?_, rfl, ?_⟩
        · simp only [chanRanges, List.getElem?_cons_zero, (bins_flow j).2]
        · simp only [List.map_cons, Spec.cut, List.getElem?_cons_zero, slice_eq]
      | succ k =>
        rw [List.getElem?_cons_succ] at h
        obtain ⟨a, b, h1, h2, h3⟩ := ih (s + Spec.width j) k h
        refine ⟨a, b, ?_, h2, ?_⟩
        · simp only [chanRanges, List.getElem?_cons_succ, (bins_flow j).2]
          exact h1
        · simp only [List.map_cons, Spec.cut, List.getElem?_cons_succ, List.drop_drop]
          exact h3
  exact key info 0 k h

namespace Ex54

def ax (n : String) (k : Nat) : Axis ℚ := { name := n, size := k }

/-- a channel with two axes, a masked channel and a channel without axes -/
def base : Mp ℚ where
  key := "BaseMapping"
  info := [("a", ⟨[ax "x" 2, ax "y" 2], false, false⟩), ("m", ⟨[ax "z" 3], false, true⟩), ("b", ⟨[], false, false⟩)]
  flat := fun o => .ok o.flat
  perProcess := fun _ => .error .notImpl

example : (addObserved base "obs" [1, 2, 3, 4, 5] []).toOption =
    some [(("BaseMapping", "a", "obs"), ⟨[2, 2], [1, 2, 3, 4]⟩), (("BaseMapping", "b", "obs"), ⟨[1], [5]⟩)] := by decide

example : (addExpected base "exp" [1, 2, 3, 4, 7, 8, 9, 5] []).toOption =
    some [(("BaseMapping", "a", "exp"), ⟨[2, 2], [1, 2, 3, 4]⟩), (("BaseMapping", "m", "exp"), ⟨[3], [7, 8, 9]⟩),
      (("BaseMapping", "b", "exp"), ⟨[1], [5]⟩)] := by decide

/-- the hypotheses are met -/
example : (Dict.keys base.info).Nodup ∧ (∀ kc ∈ Spec.visible base.info, kc.2.flow = false) ∧
    [1, 2, 3, 4, 5].length = ((Spec.visible base.info).map fun kc => Spec.width kc.2).sum ∧
    [1, 2, 3, 4, 7, 8, 9, 5].length = (base.info.map fun kc => Spec.width kc.2).sum := by
  refine ⟨by decide, ?_, by decide, by decide⟩
  intro kc h
  simp only [Spec.visible, base, List.mem_filter, List.mem_cons, List.not_mem_nil, or_false] at h
  rcases h.1 with rfl | rfl | rfl <;> rfl

end Ex54

/-- C54 does not hold for data in a channel with flow bins: the loop counts the bins without flow bins, so the histogram
of channel `a` gets its underflow bin as first bin, and the histogram of channel `b` gets the overflow bins of `a`. -/
theorem c54_flow_violated :
    let m : Mp ℚ := { key := "BaseMapping", info := [("a", ⟨[{ name := "x", size := 2, extent := 4 }], true, false⟩),
        ("b", ⟨[{ name := "y", size := 2 }], false, false⟩)], flat := fun o => .ok o.flat, perProcess := fun _ => .error .notImpl }
    -- underflow 100, bins 1 and 2, overflow 200; then channel b with 7 and 8
    (addObserved m "obs" [100, 1, 2, 200, 7, 8] []).toOption =
      some [(("BaseMapping", "a", "obs"), ⟨[2], [100, 1]⟩), (("BaseMapping", "b", "obs"), ⟨[2], [2, 200]⟩)] ∧
    (addExpected m "exp" [100, 1, 2, 200, 7, 8] []).toOption =
      some [(("BaseMapping", "a", "exp"), ⟨[4], [100, 1, 2, 200]⟩), (("BaseMapping", "b", "exp"), ⟨[2], [7, 8]⟩)] := by
  constructor <;> decide

/-- C54 does not hold for what is stored per mapping (chi-square, covariance across channels): the key of `Select` leaves
the channel out, so the same selection on two channels is stored in one place and the second replaces the first. -/
theorem c54_key_violated [AddMonoid V] [Div V] (m₁ m₂ : ChanMapping V) (args : List String) (x y : ℚ)
    (st : Dict (String × String) ℚ) :
    Dict.get? (addValue (ofSelect args m₂) "chi2" y (addValue (ofSelect args m₁) "chi2" x st))
      ((ofSelect args m₁).key, "chi2") = some y := by
  unfold addValue
  rw [show (ofSelect args m₂).key = (ofSelect args m₁).key from rfl, Dict.get?_set, if_pos rfl]

end Verif.Workspace
