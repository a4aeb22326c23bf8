import Verif.Model.ParamModels
import Verif.Lemmas.Py
import Mathlib.Algebra.BigOperators.Group.List.Basic
import Mathlib.Tactic.Common
import Mathlib.Algebra.Order.Field.Rat
import Mathlib.Algebra.Field.Rat
import Mathlib.Data.Rat.Defs
import Mathlib.Tactic.NormNum

/-!
C45 Composite models factorise.
-/

namespace Verif.ParamModels

variable {V : Type}

/-! ### specification -/

namespace Spec

/-- Position, in the composite vector, of entry `k` of submodel `j`: POIs of all models come first, in the order of the
models, then all other parameters. -/
def pos (ms : List (PModel V)) (j k : Nat) (m : PModel V) : Nat :=
  if k < m.npoi then ((ms.take j).map (·.npoi)).sum + k
  else (ms.map (·.npoi)).sum + ((ms.take j).map (·.npou)).sum + (k - m.npoi)

/-- A model whose attributes have the sizes it announces. -/
structure WF (m : PModel V) : Prop where
  params : m.params.length = m.nparams
  xdef : m.xdef.length = m.nparams
  sigmas : ∀ s, m.priorSigmas = some s → s.length = m.nparams
  means : ∀ s, m.priorMeans = some s → s.length = m.nparams

/-- `v` is the part of the composite vector `x` that belongs to submodel `j` -/
def IsSub {α : Type} (ms : List (PModel V)) (x : List α) (j : Nat) (m : PModel V) (v : List α) : Prop :=
  v.length = m.nparams ∧ ∀ k < m.nparams, v[k]? = x[pos ms j k m]?

end Spec

/-! ### helper lemmas -/

theorem flatten_getElem? {α β : Type} (g : α → List β) (n : α → Nat) (L : List α)
    (hn : ∀ a ∈ L, (g a).length = n a) (j k : Nat) (a : α) (hj : L[j]? = some a) (hk : k < n a) :
    ((L.map g).flatten)[((L.take j).map n).sum + k]? = (g a)[k]? := by
  induction L generalizing j with
  | nil => simp at hj
  | cons b L ih =>
    cases j with
    | zero =>
      simp only [List.getElem?_cons_zero, Option.some.injEq] at hj
      subst hj
      have : k < (g b).length := by rw [hn b (by simp)]; exact hk
      simp only [List.take_zero, List.map_nil, List.sum_nil, Nat.zero_add, List.map_cons, List.flatten_cons]
      rw [List.getElem?_append_left this]
    | succ j =>
      simp only [List.getElem?_cons_succ] at hj
      have hb := hn b (by simp)
      simp only [List.take_succ_cons, List.map_cons, List.sum_cons, List.flatten_cons]
      rw [List.getElem?_append_right (by omega), ← ih (fun a h => hn a (by simp [h])) j hj]
      congr 1; omega

theorem flatten_length {α β : Type} (g : α → List β) (n : α → Nat) (L : List α)
    (hn : ∀ a ∈ L, (g a).length = n a) : ((L.map g).flatten).length = (L.map n).sum := by
  induction L with
  | nil => rfl
  | cons b L ih => simp [hn b (by simp), ih fun a h => hn a (by simp [h])]

theorem blocks_getElem? {α : Type} (ms : List (PModel V)) (f : PModel V → List α)
    (hf : ∀ m ∈ ms, (f m).length = m.nparams) (j k : Nat) (m : PModel V) (hj : ms[j]? = some m) (hk : k < m.nparams) :
    (blocks ms f)[Spec.pos ms j k m]? = (f m)[k]? := by
  have h1 : ∀ m ∈ ms, ((f m).take m.npoi).length = m.npoi := fun m h => by
    rw [List.length_take, hf m h]; simp [PModel.nparams]
  have h2 : ∀ m ∈ ms, ((f m).drop m.npoi).length = m.npou := fun m h => by
    rw [List.length_drop, hf m h]; simp [PModel.nparams]
  have l1 := flatten_length (fun m : PModel V => (f m).take m.npoi) (·.npoi) ms h1
  unfold blocks Spec.pos
  split
  · rename_i hlt
    have e := flatten_getElem? (fun m : PModel V => (f m).take m.npoi) (·.npoi) ms h1 j k m hj hlt
    have : ((f m).take m.npoi)[k]? = (f m)[k]? := by rw [List.getElem?_take, if_pos hlt]
    rw [this] at e
    rw [List.getElem?_append_left, e]
    have hkl : k < (f m).length := by rw [hf m (List.mem_of_getElem? hj)]; exact hk
    rw [List.getElem?_eq_getElem hkl] at e
    exact (List.getElem?_eq_some_iff.1 e).1
  · rename_i hge
    rw [List.getElem?_append_right (by omega), l1]
    have hk' : k - m.npoi < m.npou := by unfold PModel.nparams at hk; omega
    have e := flatten_getElem? (fun m : PModel V => (f m).drop m.npoi) (·.npou) ms h2 j (k - m.npoi) m hj hk'
    have e2 : ((f m).drop m.npoi)[k - m.npoi]? = (f m)[k]? := by rw [List.getElem?_drop]; congr 1; omega
    rw [← e2, ← e]; congr 1; omega

theorem blocks_length {α : Type} (ms : List (PModel V)) (f : PModel V → List α)
    (hf : ∀ m ∈ ms, (f m).length = m.nparams) :
    (blocks ms f).length = (ms.map (·.npoi)).sum + (ms.map (·.npou)).sum := by
  unfold blocks
  rw [List.length_append, flatten_length _ (·.npoi) ms, flatten_length _ (·.npou) ms]
  · intro m h; rw [List.length_drop, hf m h]; simp [PModel.nparams]
  · intro m h; rw [List.length_take, hf m h]; simp [PModel.nparams]

theorem sum_take_le (ns : List Nat) (j : Nat) (n : Nat) (h : ns[j]? = some n) : (ns.take j).sum + n ≤ ns.sum := by
  induction ns generalizing j with
  | nil => simp at h
  | cons a ns ih =>
    cases j with
    | zero => simp at h; subst h; simp
    | succ j => simp at h; have := ih j h; simp only [List.take_succ_cons, List.sum_cons]; omega

theorem sum_take_mono (ns : List Nat) (j j' : Nat) (n : Nat) (h : ns[j]? = some n) (hj : j < j') :
    (ns.take j).sum + n ≤ (ns.take j').sum := by
  have := sum_take_le (ns.take j') j n (by rw [List.getElem?_take, if_pos hj]; exact h)
  rwa [List.take_take, min_eq_left hj.le] at this

theorem exists_split (ns : List Nat) (q : Nat) (hq : q < ns.sum) :
    ∃ j n k, ns[j]? = some n ∧ k < n ∧ q = (ns.take j).sum + k := by
  induction ns generalizing q with
  | nil => simp at hq
  | cons a ns ih =>
    by_cases h : q < a
    · exact ⟨0, a, q, rfl, h, by simp⟩
    · obtain ⟨j, n, k, h1, h2, h3⟩ := ih (q - a) (by simp only [List.sum_cons] at hq; omega)
      exact ⟨j + 1, n, k, h1, h2, by simp only [List.take_succ_cons, List.sum_cons]; omega⟩

theorem composite_fields [Mul V] {ms : List (PModel V)} {e : Option Bool} {c : PModel V}
    (h : composite ms e = .ok c) :
    c.npoi = (ms.map (·.npoi)).sum ∧ c.npou = (ms.map (·.npou)).sum ∧ c.params = blocks ms (·.params) ∧
    c.xdef = blocks ms (·.xdef) ∧ compositeAllowNeg ms e = .ok c.allowNeg ∧
    (c.compute = fun param full => match computeParts param full 0 (ms.map (·.npoi)).sum ms with
          | .error e => .error e
          | .ok rs => reduceMul rs) := by
  unfold composite at h
  split at h
  · exact nomatch h
  · cases h; refine ⟨rfl, rfl, rfl, rfl, by assumption, rfl⟩

theorem composite_priors [Mul V] {ms : List (PModel V)} {e : Option Bool} {c : PModel V}
    (h : composite ms e = .ok c) :
    (c.priorSigmas = if (ms.any fun m => m.priorSigmas.isSome) = true then some (blocks ms subSigmas) else none) ∧
    (c.priorMeans = if (ms.any fun m => m.priorSigmas.isSome) = true then some (blocks ms subMeans) else none) ∧
    c.isLinear = ((ms.map (·.npoi)).sum + (ms.map (·.npou)).sum == 0 ||
      c.allowNeg && decide ((ms.filter fun m => decide (m.nparams > 0)).length ≤ 1) &&
        (ms.filter fun m => decide (m.nparams > 0)).all (·.isLinear)) := by
  unfold composite at h
  split at h
  · exact nomatch h
  · cases h; exact ⟨rfl, rfl, rfl⟩

theorem bdim_one {a b c : Nat} (h : bdim a b = .ok c) : c = 1 ↔ a = 1 ∧ b = 1 := by
  unfold bdim at h; split_ifs at h <;> cases h <;> omega

theorem mul_at [Mul V] {a b r : Rates V} (h : a.mul b = .ok r) (i p : Nat) : r.at i p = a.at i p * b.at i p := by
  unfold Rates.mul at h
  split at h
  · rename_i x y hx hy
    cases h
    have h1 := bdim_one hx; have h2 := bdim_one hy
    simp only [Rates.at]
    by_cases hx1 : x = 1 <;> by_cases hy1 : y = 1
    · have ha := h1.1 hx1; have hb := h2.1 hy1; simp [ha, hb]
    · have ha := h1.1 hx1; simp [hy1, ha]
    · have hb := h2.1 hy1; simp [hx1, hb]
    · simp [hx1, hy1]
  · exact nomatch h

theorem foldlM_mul_at [Monoid V] (rs : List (Rates V)) (r0 r : Rates V)
    (h : rs.foldlM (fun a b => a.mul b) r0 = .ok r) (i p : Nat) :
    r.at i p = r0.at i p * (rs.map (·.at i p)).prod := by
  induction rs generalizing r0 with
  | nil => simp [List.foldlM] at h; cases h; simp
  | cons x rs ih =>
    rw [List.foldlM_cons] at h
    cases hx : r0.mul x with
    | error e => rw [hx] at h; exact nomatch h
    | ok y =>
      rw [hx] at h
      rw [ih y h, mul_at hx, List.map_cons, List.prod_cons, mul_assoc]

/-- the vector handed to submodel `m` at the given offsets -/
def handed (param : List V) (poi pou : Nat) (m : PModel V) : List V :=
  (if m.npoi > 0 then slice param poi (poi + m.npoi) else []) ++
      (if m.npou > 0 then slice param pou (pou + m.npou) else [])

theorem handed_length (param : List V) (poi pou : Nat) (m : PModel V) (h1 : poi + m.npoi ≤ param.length)
    (h2 : pou + m.npou ≤ param.length) : (handed param poi pou m).length = m.nparams := by
  unfold handed slice PModel.nparams
  split_ifs <;> simp <;> omega

theorem handed_getElem? (param : List V) (poi pou : Nat) (m : PModel V) (h1 : poi + m.npoi ≤ param.length)
    (k : Nat) (hk : k < m.nparams) :
    (handed param poi pou m)[k]? = param[if k < m.npoi then poi + k else pou + (k - m.npoi)]? := by
  have hl : (if m.npoi > 0 then slice param poi (poi + m.npoi) else []).length = m.npoi := by
    unfold slice; split_ifs <;> simp <;> omega
  unfold handed
  by_cases h : k < m.npoi
  · rw [List.getElem?_append_left (by omega), if_pos (show m.npoi > 0 by omega), if_pos h]
    unfold slice
    rw [List.getElem?_take, if_pos (by omega), List.getElem?_drop]
  · have : m.npou > 0 := by unfold PModel.nparams at hk; omega
    rw [List.getElem?_append_right (by omega), hl, if_pos this, if_neg h]
    unfold slice
    rw [List.getElem?_take, if_pos (by unfold PModel.nparams at hk; omega), List.getElem?_drop]

theorem computeParts_ok (param : List V) (full : Bool) (ms : List (PModel V)) (poi pou : Nat) (rs : List (Rates V)) :
    computeParts param full poi pou ms = .ok rs ↔
      rs.length = ms.length ∧ ∀ (j : Nat) (m : PModel V), ms[j]? = some m → ∃ r, rs[j]? = some r ∧
        m.compute (handed param (poi + ((ms.take j).map (·.npoi)).sum) (pou + ((ms.take j).map (·.npou)).sum) m) full = .ok r := by
  induction ms generalizing poi pou rs with
  | nil => cases rs <;> simp [computeParts]
  | cons m ms ih =>
    rw [computeParts]
    change (match m.compute (handed param poi pou m) full with
      | .error e => .error e
      | .ok r => match computeParts param full (poi + m.npoi) (pou + m.npou) ms with
        | .error e => .error e
        | .ok rs => .ok (r :: rs) : Res (List (Rates V))) = .ok rs ↔ _
    constructor
    · intro h
      split at h
      · exact nomatch h
      · rename_i r hr
        split at h
        · exact nomatch h
        · rename_i rs' hrs
          cases h
          obtain ⟨hl, hj⟩ := (ih _ _ _).1 hrs
          refine ⟨by simp [hl], fun j m' hm => ?_⟩
          cases j with
          | zero => simp at hm; subst hm; exact ⟨r, rfl, by simpa using hr⟩
          | succ j =>
            simp at hm
            obtain ⟨r', h1, h2⟩ := hj j m' hm
            refine ⟨r', by simpa using h1, ?_⟩
            simp only [List.take_succ_cons, List.map_cons, List.sum_cons]
            rw [← Nat.add_assoc, ← Nat.add_assoc]; exact h2
    · rintro ⟨hl, hj⟩
      cases rs with
      | nil => simp at hl
      | cons r rs =>
        obtain ⟨r', h1, h2⟩ := hj 0 m rfl
        simp at h1; subst h1
        simp only [List.take_zero, List.map_nil, List.sum_nil, Nat.add_zero] at h2
        rw [h2]
        have : computeParts param full (poi + m.npoi) (pou + m.npou) ms = .ok rs := by
          rw [ih]
          refine ⟨by simpa using hl, fun j m' hm => ?_⟩
          obtain ⟨r'', h3, h4⟩ := hj (j + 1) m' (by simpa using hm)
          simp only [List.take_succ_cons, List.map_cons, List.sum_cons] at h4
          rw [← Nat.add_assoc, ← Nat.add_assoc] at h4
          exact ⟨r'', by simpa using h3, h4⟩
        rw [this]

/-! ### C45 -/

open Spec

/-- The composite has as many POIs and nuisance parameters as its submodels together; entry `k` of submodel `j` keeps its
name, default, and it is among the POIs of the composite exactly if it is a POI of the submodel. -/
theorem c45_layout [Mul V] {ms : List (PModel V)} {e : Option Bool} {c : PModel V} (h : composite ms e = .ok c)
    (hwf : ∀ m ∈ ms, WF m) :
    c.npoi = (ms.map (·.npoi)).sum ∧ c.npou = (ms.map (·.npou)).sum ∧ WF c ∧
    ∀ j m, ms[j]? = some m → ∀ k < m.nparams,
      pos ms j k m < c.nparams ∧ c.params[pos ms j k m]? = m.params[k]? ∧ c.xdef[pos ms j k m]? = m.xdef[k]? ∧
      (pos ms j k m < c.npoi ↔ k < m.npoi) := by
  obtain ⟨h1, h2, h3, h4, h5, h6⟩ := composite_fields h
  refine ⟨h1, h2, ⟨?_, ?_, ?_, ?_⟩, fun j m hj k hk => ⟨?_, ?_, ?_, ?_⟩⟩
  · rw [h3, blocks_length _ _ fun m hm => (hwf m hm).params]; simp [PModel.nparams, h1, h2]
  · rw [h4, blocks_length _ _ fun m hm => (hwf m hm).xdef]; simp [PModel.nparams, h1, h2]
  · intro s hs
    rw [(composite_priors h).1] at hs
    split_ifs at hs; cases hs
    unfold PModel.nparams; rw [h1, h2]
    refine blocks_length _ _ fun m hm => ?_
    unfold subSigmas
    cases hp : m.priorSigmas with
    | none => simp
    | some s => simpa [hp] using (hwf m hm).sigmas s hp
  · intro s hs
    rw [(composite_priors h).2.1] at hs
    split_ifs at hs; cases hs
    unfold PModel.nparams; rw [h1, h2]
    refine blocks_length _ _ fun m hm => ?_
    unfold subMeans
    cases hp : m.priorMeans with
    | none => simpa using (hwf m hm).xdef
    | some s => simpa [hp] using (hwf m hm).means s hp
  · have hp := blocks_getElem? ms (·.params) (fun m hm => (hwf m hm).params) j k m hj hk
    have : k < m.params.length := by rw [(hwf m (List.mem_of_getElem? hj)).params]; exact hk
    rw [List.getElem?_eq_getElem this] at hp
    have hlt := (List.getElem?_eq_some_iff.1 hp).1
    rw [blocks_length _ _ fun m hm => (hwf m hm).params] at hlt
    simpa [PModel.nparams, h1, h2] using hlt
  · rw [h3]; exact blocks_getElem? ms (·.params) (fun m hm => (hwf m hm).params) j k m hj hk
  · rw [h4]; exact blocks_getElem? ms (·.xdef) (fun m hm => (hwf m hm).xdef) j k m hj hk
  · rw [h1]
    unfold pos
    have hs := sum_take_le (ms.map (·.npoi)) j m.npoi (by rw [List.getElem?_map, hj]; rfl)
    rw [← List.map_take] at hs
    split_ifs with hlt
    · simp only [hlt, iff_true]; omega
    · simp only [hlt, iff_false]; omega

/-- Every parameter of the composite belongs to exactly one entry of exactly one submodel. -/
theorem c45_partition [Mul V] {ms : List (PModel V)} {e : Option Bool} {c : PModel V} (h : composite ms e = .ok c)
    (q : Nat) (hq : q < c.nparams) :
    ∃ j m k, (ms[j]? = some m ∧ k < m.nparams ∧ pos ms j k m = q) ∧
      ∀ j' m' k', ms[j']? = some m' → k' < m'.nparams → pos ms j' k' m' = q → j' = j ∧ k' = k := by
  obtain ⟨h1, h2, -, -, -, -⟩ := composite_fields h
  have inj : ∀ j m k j' m' k', ms[j]? = some m → k < m.nparams → ms[j']? = some m' → k' < m'.nparams →
      pos ms j k m = pos ms j' k' m' → j' = j ∧ k' = k := by
    have key : ∀ (g : PModel V → Nat) j m k j' m' k', ms[j]? = some m → k < g m → ms[j']? = some m' → k' < g m' →
        ((ms.take j).map g).sum + k = ((ms.take j').map g).sum + k' → j' = j ∧ k' = k := by
      intro g j m k j' m' k' hj hk hj' hk' heq
      have a1 : (ms.map g)[j]? = some (g m) := by rw [List.getElem?_map, hj]; rfl
      have a2 : (ms.map g)[j']? = some (g m') := by rw [List.getElem?_map, hj']; rfl
      rcases lt_trichotomy j j' with hlt | heq' | hgt
      · have := sum_take_mono _ _ _ _ a1 hlt; rw [← List.map_take, ← List.map_take] at this; omega
      · subst heq'; rw [hj] at hj'; cases hj'; exact ⟨rfl, by omega⟩
      · have := sum_take_mono _ _ _ _ a2 hgt; rw [← List.map_take, ← List.map_take] at this; omega
    intro j m k j' m' k' hj hk hj' hk' heq
    have b1 := sum_take_le (ms.map (·.npoi)) j m.npoi (by rw [List.getElem?_map, hj]; rfl)
    have b2 := sum_take_le (ms.map (·.npoi)) j' m'.npoi (by rw [List.getElem?_map, hj']; rfl)
    rw [← List.map_take] at b1 b2
    unfold PModel.nparams at hk hk'
    unfold pos at heq
    split_ifs at heq with c1 c2 c2
    · exact key (·.npoi) j m k j' m' k' hj c1 hj' c2 heq
    · omega
    · omega
    · obtain ⟨e1, e2⟩ := key (·.npou) j m (k - m.npoi) j' m' (k' - m'.npoi) hj (by omega) hj' (by omega) (by omega)
      subst e1; rw [hj] at hj'; cases hj'; exact ⟨rfl, by omega⟩
  unfold PModel.nparams at hq
  rw [h1, h2] at hq
  have ex : ∃ j m k, ms[j]? = some m ∧ k < m.nparams ∧ pos ms j k m = q := by
    by_cases hlt : q < (ms.map (·.npoi)).sum
    · obtain ⟨j, n, k, e1, e2, e3⟩ := exists_split _ q hlt
      rw [List.getElem?_map, Option.map_eq_some_iff] at e1
      obtain ⟨m, hm, rfl⟩ := e1
      refine ⟨j, m, k, hm, by unfold PModel.nparams; omega, ?_⟩
      unfold pos; rw [if_pos e2, List.map_take]; exact e3.symm
    · obtain ⟨j, n, k, e1, e2, e3⟩ := exists_split (ms.map (·.npou)) (q - (ms.map (·.npoi)).sum) (by omega)
      rw [List.getElem?_map, Option.map_eq_some_iff] at e1
      obtain ⟨m, hm, rfl⟩ := e1
      refine ⟨j, m, m.npoi + k, hm, by unfold PModel.nparams; omega, ?_⟩
      unfold pos; rw [if_neg (by omega), List.map_take]; omega
  obtain ⟨j, m, k, e1, e2, e3⟩ := ex
  exact ⟨j, m, k, ⟨e1, e2, e3⟩, fun j' m' k' f1 f2 f3 => inj j m k j' m' k' e1 e2 f1 f2 (e3.trans f3.symm)⟩

/-- the sub-vector handed to submodel `j` of a composite is the part of the vector at the positions of its entries -/
theorem handed_isSub [Mul V] {ms : List (PModel V)} {e : Option Bool} {c : PModel V} (h : composite ms e = .ok c)
    {x : List V} (hx : x.length = c.nparams) {j : Nat} {m : PModel V} (hj : ms[j]? = some m) :
    IsSub ms x j m (handed x (0 + ((ms.take j).map (·.npoi)).sum)
      ((ms.map (·.npoi)).sum + ((ms.take j).map (·.npou)).sum) m) := by
  obtain ⟨h1, h2, -, -, -, -⟩ := composite_fields h
  have b1 := sum_take_le (ms.map (·.npoi)) j m.npoi (by rw [List.getElem?_map, hj]; rfl)
  have b2 := sum_take_le (ms.map (·.npou)) j m.npou (by rw [List.getElem?_map, hj]; rfl)
  rw [← List.map_take] at b1 b2
  unfold PModel.nparams at hx
  refine ⟨handed_length _ _ _ _ (by omega) (by omega), fun k hk => ?_⟩
  rw [handed_getElem? _ _ _ _ (by omega) k hk]
  unfold pos; split_ifs <;> simp

theorem isSub_unique {α : Type} {ms : List (PModel V)} {x : List α} {j : Nat} {m : PModel V} {v w : List α}
    (hv : IsSub ms x j m v) (hw : IsSub ms x j m w) : v = w := by
  apply List.ext_getElem?
  intro k
  by_cases hk : k < m.nparams
  · rw [hv.2 k hk, hw.2 k hk]
  · rw [List.getElem?_eq_none (by rw [hv.1]; omega), List.getElem?_eq_none (by rw [hw.1]; omega)]

/-- The rate factor of a composite is, for every bin and process, the product of what the submodels compute from their own
parts of the parameter vector. -/
theorem c45_product [Monoid V] {ms : List (PModel V)} {e : Option Bool} {c : PModel V} (h : composite ms e = .ok c)
    (x : List V) (hx : x.length = c.nparams) (full : Bool) (r : Rates V) (hr : c.compute x full = .ok r)
    (v : Nat → List V) (hv : ∀ j m, ms[j]? = some m → IsSub ms x j m (v j)) :
    ∃ rs : List (Rates V), rs.length = ms.length ∧
      (∀ (j : Nat) (m : PModel V), ms[j]? = some m → ∃ rj, rs[j]? = some rj ∧ m.compute (v j) full = .ok rj) ∧
      ∀ b p, r.at b p = (rs.map (·.at b p)).prod := by
  have hc := (composite_fields h).2.2.2.2.2
  rw [hc] at hr
  dsimp only at hr
  split at hr
  · exact nomatch hr
  · rename_i rs hrs
    obtain ⟨hl, hj⟩ := (computeParts_ok _ _ _ _ _ _).1 hrs
    refine ⟨rs, hl, fun j m hm => ?_, fun b p => ?_⟩
    · obtain ⟨rj, e1, e2⟩ := hj j m hm
      refine ⟨rj, e1, ?_⟩
      rw [isSub_unique (hv j m hm) (handed_isSub h hx hm)]; exact e2
    · cases rs with
      | nil => exact nomatch hr
      | cons r0 rs =>
        rw [foldlM_mul_at rs r0 r hr b p, List.map_cons, List.prod_cons]

theorem mul_ok [Mul V] {B P : Nat} {a b : Rates V} (ha : (a.rows = 1 ∨ a.rows = B) ∧ (a.cols = 1 ∨ a.cols = P))
    (hb : (b.rows = 1 ∨ b.rows = B) ∧ (b.cols = 1 ∨ b.cols = P)) :
    ∃ r, a.mul b = .ok r ∧ (r.rows = 1 ∨ r.rows = B) ∧ (r.cols = 1 ∨ r.cols = P) := by
  have bd : ∀ {x y n : Nat}, (x = 1 ∨ x = n) → (y = 1 ∨ y = n) → ∃ z, bdim x y = .ok z ∧ (z = 1 ∨ z = n) := by
    intro x y n hx hy
    unfold bdim
    split_ifs with h1 h2 h3
    · exact ⟨x, rfl, hx⟩
    · exact ⟨y, rfl, hy⟩
    · exact ⟨x, rfl, hx⟩
    · omega
  obtain ⟨z, hz, hz'⟩ := bd ha.1 hb.1
  obtain ⟨w, hw, hw'⟩ := bd ha.2 hb.2
  exact ⟨⟨z, w, fun i p => a.at i p * b.at i p⟩, by unfold Rates.mul; rw [hz, hw], hz', hw'⟩

/-- When every submodel returns rates for all bins or one row, and for all processes or one column, the composite returns a
result. -/
theorem c45_succeeds [Mul V] {ms : List (PModel V)} {e : Option Bool} {c : PModel V} (h : composite ms e = .ok c)
    (hne : ms ≠ []) (x : List V) (hx : x.length = c.nparams) (full : Bool) (B P : Nat)
    (hall : ∀ j m v, ms[j]? = some m → IsSub ms x j m v →
      ∃ r, m.compute v full = .ok r ∧ (r.rows = 1 ∨ r.rows = B) ∧ (r.cols = 1 ∨ r.cols = P)) :
    ∃ r, c.compute x full = .ok r := by
  have hc := (composite_fields h).2.2.2.2.2
  have ne : Nonempty (Rates V) := by
    cases ms with
    | nil => exact absurd rfl hne
    | cons m ms => obtain ⟨r, -⟩ := hall 0 m _ rfl (handed_isSub h hx (j := 0) rfl); exact ⟨r⟩
  choose! f hf using hall
  have : ∃ rs, computeParts x full 0 (ms.map (·.npoi)).sum ms = .ok rs ∧
      ∀ r ∈ rs, (r.rows = 1 ∨ r.rows = B) ∧ (r.cols = 1 ∨ r.cols = P) := by
    let hand := fun j m => handed x (0 + ((ms.take j).map (·.npoi)).sum)
      ((ms.map (·.npoi)).sum + ((ms.take j).map (·.npou)).sum) m
    refine ⟨ms.mapIdx fun j m => f j m (hand j m), ?_, ?_⟩
    · rw [computeParts_ok]
      refine ⟨by simp, fun j m hm => ⟨f j m (hand j m), ?_, (hf j m _ hm (handed_isSub h hx hm)).1⟩⟩
      rw [List.getElem?_mapIdx, hm]; rfl
    · intro r hr
      obtain ⟨j, hj, rfl⟩ := List.mem_mapIdx.1 hr
      have hm : ms[j]? = some ms[j] := List.getElem?_eq_getElem hj
      exact (hf j _ _ hm (handed_isSub h hx hm)).2
  obtain ⟨rs, hrs, hb⟩ := this
  rw [hc]; dsimp only; rw [hrs]; dsimp only
  have hl := ((computeParts_ok _ _ _ _ _ _).1 hrs).1
  cases rs with
  | nil => cases ms with
    | nil => exact absurd rfl hne
    | cons => simp at hl
  | cons r0 rs =>
    rw [reduceMul]
    clear hrs hl
    induction rs generalizing r0 with
    | nil => exact ⟨r0, rfl⟩
    | cons r1 rs ih =>
      obtain ⟨r2, h2, hb2⟩ := mul_ok (hb r0 (by simp)) (hb r1 (by simp))
      rw [List.foldlM_cons, h2]
      refine ih r2 fun r hr => ?_
      rcases List.mem_cons.1 hr with rfl | hr
      · exact hb2
      · exact hb r (by simp [hr])

/-- The default values of a composite hand every submodel its own default values. -/
theorem c45_default [Mul V] {ms : List (PModel V)} {e : Option Bool} {c : PModel V} (h : composite ms e = .ok c)
    (hwf : ∀ m ∈ ms, WF m) (j : Nat) (m : PModel V) (hj : ms[j]? = some m) : IsSub ms c.xdef j m m.xdef :=
  ⟨(hwf m (List.mem_of_getElem? hj)).xdef, fun k hk => (((c45_layout h hwf).2.2.2 j m hj k hk).2.2.1).symm⟩

/-- Priors keep their parameter: with at least one declaration, the width of every entry is that of its submodel (none
where the submodel declares nothing), and its centre is the declared centre or the default of the submodel. -/
theorem c45_priors [Mul V] {ms : List (PModel V)} {e : Option Bool} {c : PModel V} (h : composite ms e = .ok c)
    (hwf : ∀ m ∈ ms, WF m) :
    ((∀ m ∈ ms, m.priorSigmas = none) → c.priorSigmas = none) ∧
    ((∃ m ∈ ms, m.priorSigmas ≠ none) → ∃ s mu, c.priorSigmas = some s ∧ c.priorMeans = some mu ∧
      ∀ j m, ms[j]? = some m → ∀ k < m.nparams,
        s[pos ms j k m]? = some ((m.priorSigmas.bind fun l => l[k]?).join) ∧
        mu[pos ms j k m]? = match m.priorMeans with
          | some l => l[k]?
          | none => m.xdef[k]?) := by
  rw [(composite_priors h).1, (composite_priors h).2.1]
  refine ⟨fun hn => if_neg ?_, fun ⟨m, hm, hne⟩ => ?_⟩
  · simp only [List.any_eq_true, not_exists, not_and]
    intro m hm; simp [hn m hm]
  · have hd : (ms.any fun m => m.priorSigmas.isSome) = true :=
      List.any_eq_true.2 ⟨m, hm, Option.isSome_iff_ne_none.2 hne⟩
    simp only [hd, if_true]
    refine ⟨_, _, rfl, rfl, fun j m hj k hk => ⟨?_, ?_⟩⟩
    · have hw := fun m hm => (hwf m hm : WF m)
      rw [blocks_getElem? ms subSigmas ?_ j k m hj hk]
      · unfold subSigmas
        cases hp : m.priorSigmas with
        | none => simp [hk]
        | some s =>
          have : k < s.length := by rw [(hw m (List.mem_of_getElem? hj)).sigmas s hp]; exact hk
          simp [List.getElem?_eq_getElem this]
      · intro m hm
        unfold subSigmas
        cases hp : m.priorSigmas with
        | none => simp
        | some s => simpa [hp] using (hw m hm).sigmas s hp
    · rw [blocks_getElem? ms subMeans ?_ j k m hj hk]
      · unfold subMeans; cases m.priorMeans <;> rfl
      · intro m hm
        unfold subMeans
        cases hp : m.priorMeans with
        | none => simpa using (hwf m hm).xdef
        | some s => simpa [hp] using (hwf m hm).means s hp

theorem poiFlags_spec (ms : List (PModel V)) :
    (poiFlags ms).Nodup ∧ ∀ b, b ∈ poiFlags ms ↔ ∃ m ∈ ms, 0 < m.npoi ∧ m.allowNeg = b := by
  have key : ∀ (l : List (PModel V)) (s : List Bool), s.Nodup →
      (l.foldl (fun s m => setAdd s m.allowNeg) s).Nodup ∧
      ∀ b, b ∈ l.foldl (fun s m => setAdd s m.allowNeg) s ↔ b ∈ s ∨ ∃ m ∈ l, m.allowNeg = b := by
    intro l
    induction l with
    | nil => intro s hs; simp [hs]
    | cons m l ih =>
      intro s hs
      have hs' : (setAdd s m.allowNeg).Nodup := by
        unfold setAdd; split_ifs with hm
        · exact hs
        · exact List.nodup_append.2 ⟨hs, by simp, fun a ha b hb hab => hm (by simp at hb; rw [← hb, ← hab]; exact ha)⟩
      obtain ⟨i1, i2⟩ := ih _ hs'
      refine ⟨i1, fun b => ?_⟩
      rw [List.foldl_cons, i2]
      have : b ∈ setAdd s m.allowNeg ↔ b ∈ s ∨ m.allowNeg = b := by
        unfold setAdd; split_ifs with hm
        · constructor
          · exact .inl
          · rintro (h | rfl) <;> assumption
        · simp [eq_comm]
      rw [this]; simp [or_assoc]
  obtain ⟨k1, k2⟩ := key (ms.filter fun m => m.npoi > 0) [] List.nodup_nil
  refine ⟨k1, fun b => ?_⟩
  unfold poiFlags
  rw [k2]; simp [and_assoc]

/-- The squaring of the POIs is a single switch: the composite is refused exactly when two submodels with POIs disagree, or
the explicit choice contradicts them; otherwise it carries the common flag. -/
theorem c45_flag [Mul V] (ms : List (PModel V)) (e : Option Bool) :
    ((∃ er, composite ms e = .error er) ↔
      (∃ m ∈ ms, ∃ m' ∈ ms, 0 < m.npoi ∧ 0 < m'.npoi ∧ m.allowNeg ≠ m'.allowNeg) ∨
      (∃ b, e = some b ∧ ∃ m ∈ ms, 0 < m.npoi ∧ m.allowNeg ≠ b)) ∧
    ∀ c, composite ms e = .ok c → ∀ m ∈ ms, 0 < m.npoi → m.allowNeg = c.allowNeg := by
  obtain ⟨hnd, hmem⟩ := poiFlags_spec ms
  have herr : (∃ er, composite ms e = .error er) ↔ ∃ er, compositeAllowNeg ms e = .error er := by
    unfold composite
    cases hc : compositeAllowNeg ms e <;> simp
  rw [herr]
  -- at most two flags exist
  have cases3 : (poiFlags ms = [] ∨ (∃ b, poiFlags ms = [b])) ∨
      (1 < (poiFlags ms).length ∧ ∀ b, b ∈ poiFlags ms) := by
    match hp : poiFlags ms, hnd with
    | [], _ => exact .inl (.inl rfl)
    | [b], _ => exact .inl (.inr ⟨b, rfl⟩)
    | a :: b :: l, hn =>
      right
      refine ⟨by simp, fun x => ?_⟩
      have hab : a ≠ b := by
        intro h; subst h; simp at hn
      cases a <;> cases b <;> cases x <;> simp_all
  rcases cases3 with (h0 | ⟨b, hb⟩) | ⟨h2, hall⟩
  · have hno : ∀ m ∈ ms, ¬ 0 < m.npoi := fun m hm hp => by
      have := (hmem m.allowNeg).2 ⟨m, hm, hp, rfl⟩; rw [h0] at this; simp at this
    refine ⟨⟨?_, ?_⟩, fun c _ m hm hp => absurd hp (hno m hm)⟩
    · rintro ⟨er, her⟩
      unfold compositeAllowNeg at her; rw [h0] at her; cases e <;> simp at her
    · rintro (⟨m, hm, -, -, hp, -⟩ | ⟨-, -, m, hm, hp, -⟩) <;> exact absurd hp (hno m hm)
  · have hone : ∀ m ∈ ms, 0 < m.npoi → m.allowNeg = b := fun m hm hp => by
      have := (hmem m.allowNeg).2 ⟨m, hm, hp, rfl⟩; rw [hb] at this; simpa using this
    obtain ⟨m0, hm0, hp0, hb0⟩ := (hmem b).1 (by rw [hb]; simp)
    have hval0 : compositeAllowNeg ms none = .ok b := by unfold compositeAllowNeg; rw [hb]; simp
    have hval1 : ∀ x, compositeAllowNeg ms (some x) = if b ≠ x then .error .value else .ok x := by
      intro x; unfold compositeAllowNeg; rw [hb]; simp
    refine ⟨⟨?_, ?_⟩, fun c hc m hm hp => ?_⟩
    · rintro ⟨er, her⟩
      cases e with
      | none => rw [hval0] at her; simp at her
      | some x =>
        rw [hval1] at her
        right
        refine ⟨x, rfl, m0, hm0, hp0, ?_⟩
        rintro hx; rw [hb0] at hx; subst hx; simp at her
    · rintro (⟨m, hm, m', hm', hp, hp', hne⟩ | ⟨x, rfl, m, hm, hp, hne⟩)
      · exact absurd ((hone m hm hp).trans (hone m' hm' hp').symm) hne
      · rw [hone m hm hp] at hne
        exact ⟨.value, by rw [hval1]; simp [hne]⟩
    · have := (composite_fields hc).2.2.2.2.1
      rw [hone m hm hp]
      cases e with
      | none => rw [hval0] at this; simpa using this
      | some x =>
        rw [hval1] at this
        split_ifs at this with h
        push Not at h
        subst h; simpa using this
  · obtain ⟨m, hm, hp, hf⟩ := (hmem true).1 (hall true)
    obtain ⟨m', hm', hp', hf'⟩ := (hmem false).1 (hall false)
    have hval : compositeAllowNeg ms e = .error .value := by unfold compositeAllowNeg; rw [if_pos h2]
    refine ⟨⟨fun _ => .inl ⟨m, hm, m', hm', hp, hp', by simp [hf, hf']⟩, fun _ => ⟨_, hval⟩⟩, fun c hc => ?_⟩
    have := (composite_fields hc).2.2.2.2.1
    rw [hval] at this; exact nomatch this

/-- A composite flagged linear has no parameters, or exactly one submodel with parameters, which is flagged linear, and no
squaring. -/
theorem c45_linear [Mul V] {ms : List (PModel V)} {e : Option Bool} {c : PModel V} (h : composite ms e = .ok c)
    (hl : c.isLinear = true) :
    (∀ m ∈ ms, m.nparams = 0) ∨
    (c.allowNeg = true ∧ ∃ (j : Nat) (m : PModel V), ms[j]? = some m ∧ m.isLinear = true ∧
      ∀ (j' : Nat) (m' : PModel V), ms[j']? = some m' → 0 < m'.nparams → j' = j) := by
  rw [(composite_priors h).2.2] at hl
  simp only [Bool.or_eq_true, beq_iff_eq, Bool.and_eq_true, decide_eq_true_eq] at hl
  by_cases h0 : ∀ m ∈ ms, m.nparams = 0
  · exact .inl h0
  · right
    push Not at h0
    obtain ⟨m, hm, hne⟩ := h0
    obtain ⟨j, hj⟩ := List.getElem?_of_mem hm
    rcases hl with hl | ⟨⟨h1, h2⟩, h3⟩
    · exfalso
      have a1 := sum_take_le (ms.map (·.npoi)) j m.npoi (by rw [List.getElem?_map, hj]; rfl)
      have a2 := sum_take_le (ms.map (·.npou)) j m.npou (by rw [List.getElem?_map, hj]; rfl)
      unfold PModel.nparams at hne; omega
    · refine ⟨h1, j, m, hj, ?_, fun j' m' hj' hp => ?_⟩
      · rw [List.all_eq_true] at h3
        exact h3 m (List.mem_filter.2 ⟨hm, by simpa using Nat.pos_of_ne_zero hne⟩)
      · by_contra hne'
        have key : ∀ (l : List (PModel V)) (a b : Nat) (x y : PModel V), a < b → l[a]? = some x → l[b]? = some y →
            0 < x.nparams → 0 < y.nparams → 2 ≤ (l.filter fun m => decide (m.nparams > 0)).length := by
          intro l
          induction l with
          | nil => intro a b x y _ hx; simp at hx
          | cons z l ih =>
            intro a b x y hab hx hy hpx hpy
            cases b with
            | zero => omega
            | succ b =>
              simp at hy
              cases a with
              | zero =>
                simp at hx; subst hx
                rw [List.filter_cons, if_pos (by simpa using hpx)]
                have : y ∈ l.filter fun m => decide (m.nparams > 0) :=
                  List.mem_filter.2 ⟨List.mem_of_getElem? hy, by simpa using hpy⟩
                have := List.length_pos_of_mem this
                rw [List.length_cons]; omega
              | succ a =>
                simp at hx
                have := ih a b x y (by omega) hx hy hpx hpy
                rw [List.filter_cons]; split_ifs
                · rw [List.length_cons]; omega
                · exact this
        have hpm : 0 < m.nparams := Nat.pos_of_ne_zero hne
        rcases lt_or_gt_of_ne hne' with hlt | hgt
        · have := key ms j' j m' m hlt hj' hj hp hpm; omega
        · have := key ms j j' m m' hgt hj hj' hpm hp; omega

/-! a composite of a model with a nuisance parameter and two with POIs -/
namespace Ex

def r1 (f : List ℚ → ℚ) : List ℚ → Bool → Res (Rates ℚ) := fun x _ => .ok ⟨1, 1, fun _ _ => f x⟩

def nuis : PModel ℚ :=
  { npoi := 0, npou := 1, params := ["n"], xdef := [5], allowNeg := false, isLinear := false
    priorSigmas := some [some 2], compute := r1 fun x => x.getD 0 0 }
def sig : PModel ℚ :=
  { npoi := 1, npou := 1, params := ["s", "t"], xdef := [1, 3], allowNeg := true, isLinear := true
    compute := fun x _ => .ok ⟨2, 1, fun b _ => x.getD b 0⟩ }
def other : PModel ℚ :=
  { npoi := 2, npou := 0, params := ["u", "v"], xdef := [7, 11], allowNeg := true, isLinear := true
    compute := fun x _ => .ok ⟨1, 2, fun _ p => x.getD p 0⟩ }

def comp : Res (PModel ℚ) := composite [nuis, sig, other] none

example : comp.toOption.map (·.params) = some ["s", "u", "v", "n", "t"] := by decide +kernel
example : comp.toOption.map (·.xdef) = some [1, 7, 11, 5, 3] := by decide +kernel
example : comp.toOption.map (·.priorSigmas) = some (some [none, none, none, some 2, none]) := by decide +kernel
example : (comp.toOption.bind fun c => (c.compute c.xdef true).toOption.map fun r =>
    [r.at 0 0, r.at 0 1, r.at 1 0, r.at 1 1]) = some [35, 55, 105, 165] := by decide +kernel
example : ∀ m ∈ [nuis, sig, other], WF m := by
  intro m hm
  simp only [List.mem_cons, List.not_mem_nil, or_false] at hm
  rcases hm with rfl | rfl | rfl <;> constructor <;> simp [nuis, sig, other, PModel.nparams]
example : (composite [nuis, sig, { other with allowNeg := false }] none).toOption.isNone := by decide +kernel

end Ex

/-! ### groups -/

/-- the names that the submodels list for a group, in order -/
def Spec.groupNames (ms : List (PModel V)) (g : String) : List String :=
  ms.flatMap fun m => (m.groups.filter fun e => e.1 = g).flatMap (·.2)

theorem mergeOne_get? (l : List (String × List String)) (d : Dict String (List String)) (g : String) :
    ((l.foldl (fun d kv => d.set kv.1 ((d.get? kv.1).getD [] ++ kv.2)) d).get? g).getD [] =
      (d.get? g).getD [] ++ (l.filter fun e => e.1 = g).flatMap (·.2) ∧
    (((l.foldl (fun d kv => d.set kv.1 ((d.get? kv.1).getD [] ++ kv.2)) d).get? g).isSome = true ↔
      (d.get? g).isSome = true ∨ ∃ e ∈ l, e.1 = g) := by
  induction l generalizing d with
  | nil => simp
  | cons e l ih =>
    rw [List.foldl_cons]
    obtain ⟨h1, h2⟩ := ih (d.set e.1 ((d.get? e.1).getD [] ++ e.2))
    rw [h1, h2]
    by_cases he : e.1 = g
    · subst he
      simp [Dict.get?_set_self]
    · rw [Dict.get?_set_ne _ _ he]
      simp [he]

/-- A group of the composite holds the names that its submodels list for it, all of them and in order, and the composite has
a group exactly if a submodel has it. -/
theorem c45_groups [Mul V] {ms : List (PModel V)} {e : Option Bool} {c : PModel V} (h : composite ms e = .ok c) (g : String) :
    (c.groups.get? g).getD [] = Spec.groupNames ms g ∧
    (g ∈ c.groups.keys ↔ ∃ m ∈ ms, g ∈ m.groups.keys) := by
  have hc : c.groups = mergeGroups ms := by
    unfold composite at h
    split at h
    · exact nomatch h
    · rw [← Except.ok.inj h]
  have key : ∀ (ms : List (PModel V)) (d : Dict String (List String)),
      ((ms.foldl (fun g m => m.groups.foldl (fun g kv => g.set kv.1 ((g.get? kv.1).getD [] ++ kv.2)) g) d).get? g).getD [] =
        (d.get? g).getD [] ++ Spec.groupNames ms g ∧
      (((ms.foldl (fun g m => m.groups.foldl (fun g kv => g.set kv.1 ((g.get? kv.1).getD [] ++ kv.2)) g) d).get? g).isSome = true ↔
        (d.get? g).isSome = true ∨ ∃ m ∈ ms, ∃ e ∈ m.groups, e.1 = g) := by
    intro ms
    induction ms with
    | nil => intro d; simp [Spec.groupNames]
    | cons m ms ih =>
      intro d
      rw [List.foldl_cons]
      obtain ⟨h1, h2⟩ := ih (m.groups.foldl (fun g kv => g.set kv.1 ((g.get? kv.1).getD [] ++ kv.2)) d)
      obtain ⟨h3, h4⟩ := mergeOne_get? m.groups d g
      rw [h1, h2, h3, h4]
      simp only [Spec.groupNames, List.flatMap_cons, List.append_assoc, List.mem_cons, exists_eq_or_imp, or_assoc, and_self]
  obtain ⟨h1, h2⟩ := key ms []
  refine ⟨?_, ?_⟩
  · rw [hc]; exact h1
  · rw [Dict.mem_keys_iff_has, hc]
    unfold Dict.has
    refine h2.trans ?_
    simp only [Dict.get?_nil, Option.isSome_none, Bool.false_eq_true, false_or]
    refine exists_congr fun m => and_congr_right fun _ => ?_
    unfold Dict.keys
    rw [List.mem_map]

/-- A case: two submodels that contribute to one group. -/
example : ((composite [{ Ex.nuis with groups := [("g", ["n"]), ("h", ["n"])] }, { Ex.sig with groups := [("g", ["s", "t"])] }]
    none).toOption.map fun c => (c.groups.get? "g").getD []) = some ["n", "s", "t"] := by decide +kernel

end Verif.ParamModels
