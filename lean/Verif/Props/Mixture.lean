import Verif.Lemmas.Scatter
import Mathlib.Algebra.Ring.Basic
import Mathlib.Algebra.Field.Basic
import Mathlib.Algebra.Order.Field.Rat
import Mathlib.Data.List.Perm.Subperm
import Mathlib.Tactic.Ring
import Mathlib.Tactic.LinearCombination
import Mathlib.Tactic.NormNum

/-!
C46 The mixture model.
-/

namespace Verif.ParamModels

variable {V : Type}

namespace Spec

/-- The listed processes in the order in which the tensor stores them. -/
def inOrder (procs names : List String) : List String := procs.filter fun p => decide (p ∈ names)

/-- The rate factors `r` are those of mixing parameters `x` for the pairs `prim[i]`, `comp[i]`. -/
structure Mixes [One V] [Sub V] (procs prim comp : List String) (x r : List V) : Prop where
  length : r.length = procs.length
  primary : ∀ (i j : Nat) (p : String), prim[i]? = some p → procs[j]? = some p → r[j]? = x[i]?
  complementary : ∀ (i j : Nat) (p : String), comp[i]? = some p → procs[j]? = some p → r[j]? = (x.map fun v => 1 - v)[i]?
  others : ∀ (j : Nat) (p : String), procs[j]? = some p → p ∉ prim → p ∉ comp → r[j]? = some 1

end Spec

/-! ### helper lemmas -/

theorem whereIsin_map (procs names : List String) :
    (whereIsin procs names).map (fun i => procs.getD i "") = Spec.inOrder procs names := by
  have : procs = (List.range procs.length).map fun i => procs.getD i "" := by
    apply List.ext_getElem?
    intro i
    rw [List.getElem?_map]
    by_cases h : i < procs.length
    · simp [h, List.getD_eq_getElem?_getD]
    · simp [h]
  unfold whereIsin Spec.inOrder
  conv_rhs => rw [this]
  rw [List.filter_map]
  congr 1
  apply List.filter_congr
  intro i _
  simp [Function.comp]

theorem whereIsin_nodup (procs names : List String) : (whereIsin procs names).Nodup :=
  List.Nodup.filter _ List.nodup_range

theorem mem_whereIsin {procs names : List String} {j : Nat} :
    j ∈ whereIsin procs names ↔ ∃ p, procs[j]? = some p ∧ p ∈ names := by
  unfold whereIsin
  simp only [List.mem_filter, List.mem_range, List.contains_iff_mem]
  constructor
  · rintro ⟨h, h2⟩
    refine ⟨procs[j], by simp [h], ?_⟩
    rwa [List.getD_eq_getElem?_getD, List.getElem?_eq_getElem h, Option.getD_some] at h2
  · rintro ⟨p, h, h2⟩
    have hlt := (List.getElem?_eq_some_iff.1 h).1
    refine ⟨hlt, ?_⟩
    rw [List.getD_eq_getElem?_getD, h]; exact h2

theorem whereIsin_getElem? {procs names : List String} (hn : procs.Nodup) {i j : Nat} {p : String}
    (hi : (Spec.inOrder procs names)[i]? = some p) (hj : procs[j]? = some p) :
    (whereIsin procs names)[i]? = some j := by
  rw [← whereIsin_map, List.getElem?_map, Option.map_eq_some_iff] at hi
  obtain ⟨k, hk, hp⟩ := hi
  rw [hk]
  obtain ⟨q, hq, -⟩ := mem_whereIsin.1 (List.mem_of_getElem? hk)
  rw [List.getD_eq_getElem?_getD, hq, Option.getD_some] at hp
  subst hp
  obtain ⟨h1, h2⟩ := List.getElem?_eq_some_iff.1 hq
  obtain ⟨h3, h4⟩ := List.getElem?_eq_some_iff.1 hj
  rw [(List.Nodup.getElem_inj_iff hn).1 (h2.trans h4.symm)]

theorem whereIsin_length (procs names : List String) :
    (whereIsin procs names).length = (Spec.inOrder procs names).length := by
  rw [← whereIsin_map, List.length_map]

theorem mixture_ok {procs prim comp : List String} {m : Mixture} (h : mixture procs prim comp = .ok m) :
    prim.length = comp.length ∧ (∀ p ∈ prim, p ∈ procs) ∧ (∀ p ∈ comp, p ∈ procs) ∧
    m.primary = whereIsin procs prim ∧ m.complementary = whereIsin procs comp ∧ m.npoi = prim.length ∧
    m.params = List.zipWith (fun p c => p ++ "_" ++ c ++ "_mixing") prim comp := by
  unfold mixture at h
  split_ifs at h with h1 h2 h3
  cases h
  simp only [List.any_eq_true, Bool.not_eq_true', List.contains_eq_mem, decide_eq_false_iff_not, not_exists,
    not_and, not_not] at h2 h3
  exact ⟨by omega, h2, h3, rfl, rfl, rfl, rfl⟩

theorem inOrder_length {procs names : List String} (hn : procs.Nodup) (hs : ∀ p ∈ names, p ∈ procs) :
    (Spec.inOrder procs names).length ≤ names.length ∧
    ((Spec.inOrder procs names).length = names.length ↔ names.Nodup) := by
  have hnd : (Spec.inOrder procs names).Nodup := hn.filter _
  have hmem : ∀ p, p ∈ Spec.inOrder procs names ↔ p ∈ names := fun p => by
    unfold Spec.inOrder; simp only [List.mem_filter, decide_eq_true_eq]; exact ⟨fun h => h.2, fun h => ⟨hs p h, h⟩⟩
  have hsub : (Spec.inOrder procs names).Subperm names := List.subperm_of_subset hnd fun p hp => (hmem p).1 hp
  refine ⟨hsub.length_le, fun h => ?_, fun h => ?_⟩
  · exact (hsub.perm_of_length_le (by omega)).nodup_iff.1 hnd
  · exact ((List.perm_ext_iff_of_nodup hnd h).2 hmem).length_eq

/-! ### C46 -/

open Spec

/-- Construction succeeds exactly for lists of the same length naming processes of the tensor. -/
theorem c46_constructs_iff (procs prim comp : List String) :
    (∃ m, mixture procs prim comp = .ok m) ↔
      prim.length = comp.length ∧ (∀ p ∈ prim, p ∈ procs) ∧ (∀ p ∈ comp, p ∈ procs) := by
  constructor
  · rintro ⟨m, h⟩
    obtain ⟨h1, h2, h3, -⟩ := mixture_ok h
    exact ⟨h1, h2, h3⟩
  · rintro ⟨h1, h2, h3⟩
    unfold mixture
    rw [if_neg (by omega), if_neg (by simpa using h2), if_neg (by simpa using h3)]
    exact ⟨_, rfl⟩

/-- A process listed twice makes every evaluation fail; without repetitions every evaluation succeeds. -/
theorem c46_evaluates_iff [One V] [Sub V] {procs prim comp : List String} {m : Mixture}
    (h : mixture procs prim comp = .ok m) (hn : procs.Nodup) (x : List V) (hx : x.length = prim.length) :
    (∃ r, mixtureCompute procs.length m x = .ok r) ↔ prim.Nodup ∧ comp.Nodup := by
  obtain ⟨h1, h2, h3, h4, h5, h6, -⟩ := mixture_ok h
  unfold mixtureCompute
  rw [if_pos (by omega), scatter1_ok_iff]
  have l1 := inOrder_length hn h2
  have l2 := inOrder_length hn h3
  simp only [List.length_append, List.length_map, List.length_replicate, h4, h5, whereIsin_length]
  rw [← l1.2, ← l2.2]
  constructor
  · rintro ⟨ha, -⟩; omega
  · rintro ⟨ha, hb⟩
    refine ⟨by omega, fun i hi => ?_⟩
    rcases List.mem_append.1 hi with hi | hi <;>
    · obtain ⟨p, hp, -⟩ := mem_whereIsin.1 hi
      exact (List.getElem?_eq_some_iff.1 hp).1

/-- Whatever the order of the arguments, the factors are those of the pairs taken in the order of the stored processes:
parameter `i` multiplies the `i`-th listed primary in stored order and `1 - x` the `i`-th listed complementary one. -/
theorem c46_stored_order_partial [One V] [Sub V] {procs prim comp : List String} {m : Mixture}
    (h : mixture procs prim comp = .ok m) (hn : procs.Nodup) (hd : ∀ p ∈ prim, p ∉ comp)
    (x r : List V) (hx : x.length = prim.length) (hr : mixtureCompute procs.length m x = .ok r) :
    Mixes procs (inOrder procs prim) (inOrder procs comp) x r := by
  obtain ⟨h1, h2, h3, h4, h5, h6, -⟩ := mixture_ok h
  have hdup := (c46_evaluates_iff h hn x hx).1 ⟨r, hr⟩
  have l1 := (inOrder_length hn h2).2.2 hdup.1
  unfold mixtureCompute at hr
  rw [if_pos (by omega)] at hr
  obtain ⟨r1, r2, r3⟩ := scatter1_spec hr
  have hnd : (m.primary ++ m.complementary).Nodup := by
    rw [h4, h5, List.nodup_append]
    refine ⟨whereIsin_nodup _ _, whereIsin_nodup _ _, fun a ha b hb hab => ?_⟩
    subst hab
    obtain ⟨p, hp, hp'⟩ := mem_whereIsin.1 ha
    obtain ⟨q, hq, hq'⟩ := mem_whereIsin.1 hb
    rw [hp] at hq; cases hq
    exact hd p hp' hq'
  have hlen : m.primary.length = x.length := by rw [h4, whereIsin_length, l1, hx]
  refine ⟨by simpa using r1, fun i j p hi hj => ?_, fun i j p hi hj => ?_, fun j p hj hp hc => ?_⟩
  · have hw := whereIsin_getElem? hn hi hj
    rw [← h4] at hw
    have hi' := (List.getElem?_eq_some_iff.1 hw).1
    have := r3 hnd i j (by rw [List.getElem?_append_left hi']; exact hw)
    rwa [List.getElem?_append_left (by omega)] at this
  · have hw := whereIsin_getElem? hn hi hj
    rw [← h5] at hw
    have := r3 hnd (m.primary.length + i) j (by rw [List.getElem?_append_right (by omega)]; simpa using hw)
    rw [List.getElem?_append_right (by omega), hlen] at this
    simpa using this
  · have hlt := (List.getElem?_eq_some_iff.1 hj).1
    rw [r2 j, List.getElem?_replicate, if_pos hlt]
    have hmem : ∀ names, p ∉ inOrder procs names → j ∉ whereIsin procs names := by
      intro names hno hin
      obtain ⟨q, hq, hq'⟩ := mem_whereIsin.1 hin
      rw [hj] at hq; cases hq
      exact hno (by unfold inOrder; simp [hq', List.mem_of_getElem? hj])
    rw [h4, h5, List.mem_append, not_or]
    exact ⟨hmem _ hp, hmem _ hc⟩

/-- When both lists follow the stored order, the parameter named after a pair acts on that pair: factors `x` and `1 - x`,
and one for every other process. -/
theorem c46_named_pair_partial [One V] [Sub V] {procs prim comp : List String} {m : Mixture}
    (h : mixture procs prim comp = .ok m) (hn : procs.Nodup) (hd : ∀ p ∈ prim, p ∉ comp)
    (hp : prim.Sublist procs) (hc : comp.Sublist procs)
    (x r : List V) (hx : x.length = prim.length) (hr : mixtureCompute procs.length m x = .ok r) :
    Mixes procs prim comp x r ∧
    ∀ (i : Nat) (p c : String), prim[i]? = some p → comp[i]? = some c → m.params[i]? = some (p ++ "_" ++ c ++ "_mixing") := by
  have key : ∀ (a b : List String), b.Nodup → a.Sublist b → inOrder b a = a := by
    intro a b hb hab
    unfold inOrder
    induction hab with
    | slnil => rfl
    | @cons l1 l2 y hs ih =>
      have hy := (List.nodup_cons.1 hb).1
      rw [List.filter_cons_of_neg (by simpa using fun hm => hy (hs.subset hm)), ih (List.nodup_cons.1 hb).2]
    | @cons_cons l1 l2 y hs ih =>
      have hy := (List.nodup_cons.1 hb).1
      rw [List.filter_cons_of_pos (by simp)]
      congr 1
      rw [← ih (List.nodup_cons.1 hb).2]
      conv_lhs => rw [ih (List.nodup_cons.1 hb).2]
      apply List.filter_congr
      intro z hz
      have : z ≠ y := fun h => hy (h ▸ hz)
      simp [this]
  refine ⟨?_, fun i p c h1 h2 => ?_⟩
  · have := c46_stored_order_partial h hn hd x r hx hr
    rwa [key _ _ hn hp, key _ _ hn hc] at this
  · rw [(mixture_ok h).2.2.2.2.2.2, List.getElem?_zipWith, h1, h2]

/-- The sum of a mixed pair of yields does not depend on the parameter exactly in the bins where the two nominal yields
agree. -/
theorem c46_sum_constant_iff [CommRing V] (P C : V) :
    (∀ x y : V, x * P + (1 - x) * C = y * P + (1 - y) * C) ↔ P = C := by
  constructor
  · intro h; have := h 1 0; simpa using this
  · rintro rfl x y; ring

/-- The nominal sum of the pair is kept for every parameter value only in empty bins: at the value one the complementary
process is removed, at zero the primary one. -/
theorem c46_sum_conserved_iff [CommRing V] (P C : V) :
    (∀ x : V, x * P + (1 - x) * C = P + C) ↔ P = 0 ∧ C = 0 := by
  constructor
  · intro h
    have h1 := h 1
    have h0 := h 0
    constructor
    · linear_combination -h0
    · linear_combination -h1
  · rintro ⟨rfl, rfl⟩ x; ring

/-! ### violations and a case -/

namespace MixEx

def procs : List String := ["bkg", "sigA", "sigB", "otherA", "otherB"]
def factors (prim comp : List String) (x : List ℚ) : Option (List String × List ℚ) :=
  (mixture procs prim comp).toOption.bind fun m => (mixtureCompute procs.length m x).toOption.map fun r => (m.params, r)

/-- primaries in the stored order: the named pairs are mixed -/
example : factors ["sigA", "sigB"] ["otherA", "otherB"] [1/4, 2] =
    some (["sigA_otherA_mixing", "sigB_otherB_mixing"], [1, 1/4, 2, 3/4, -1]) := by decide +kernel
example : ["sigA", "sigB"].Sublist procs ∧ procs.Nodup := by decide +kernel
/-- a repeated process cannot be evaluated -/
example : factors ["sigA", "sigB"] ["otherA", "otherA"] [1/4, 2] = none := by decide +kernel

end MixEx

/-- With the primaries listed in another order than stored, the parameter named `sigB_otherA_mixing` multiplies process
`sigA`, not `sigB`. -/
theorem c46_order_violated :
    ∃ (procs prim comp : List String) (m : Mixture) (x r : List ℚ), mixture procs prim comp = .ok m ∧
      procs.Nodup ∧ prim.Nodup ∧ comp.Nodup ∧ (∀ p ∈ prim, p ∉ comp) ∧ x.length = prim.length ∧
      mixtureCompute procs.length m x = .ok r ∧ ¬ Mixes procs prim comp x r := by
  refine ⟨MixEx.procs, ["sigB", "sigA"], ["otherA", "otherB"], ⟨[1, 2], [3, 4], 2,
    ["sigB_otherA_mixing", "sigA_otherB_mixing"]⟩, [1/4, 2], [1, 1/4, 2, 3/4, -1], by rfl, by decide, by decide,
    by decide, by decide, rfl,
    by simp [mixtureCompute, scatter1, MixEx.procs]; norm_num, fun h => ?_⟩
  have := h.primary 0 2 "sigB" rfl rfl
  norm_num at this

/-- The nominal sum of a pair is not conserved at the default value of the parameter (one): the complementary yield
disappears. -/
theorem c46_sum_violated :
    ∃ (procs prim comp : List String) (m : Mixture) (x r n : List ℚ), mixture procs prim comp = .ok m ∧
      mixtureCompute procs.length m x = .ok r ∧ x = [1] ∧
      (List.zipWith (· * ·) r n).sum ≠ n.sum := by
  refine ⟨["s", "o"], ["s"], ["o"], ⟨[0], [1], 1, ["s_o_mixing"]⟩, [1], [1, 0], [10, 10], by rfl,
    by simp [mixtureCompute, scatter1], rfl, ?_⟩
  norm_num

end Verif.ParamModels
